import Verif.Connect
import Verif.PsockSpec

/-!
A psock is connected to the host and port, or listens at the address, that was asked for (C103). The full claim fails for
ports that do not fit in 16 bits, for hosts whose first address refuses, and for IPv6 addresses to listen at.
-/
namespace Rcpr.Connect

open Rcpr Rcpr.Psock

/-- `gethostbyname2` answers with at least one address, of the size of its family. -/
def Resolver (net : Net) : Prop :=
  ∀ f host l, net.lookup f host = some l → l ≠ [] ∧ ∀ a ∈ l, a.length = if f = .inet then 4 else 16

/-- Where a host is: the first IPv4 address, or the first IPv6 address if there is no IPv4 address. -/
def At (net : Net) (host : List Byte) (f : Fam) (addr : List Byte) : Prop :=
  (f = .inet ∧ ∃ l, net.lookup .inet host = some (addr :: l)) ∨
  (f = .inet6 ∧ net.lookup .inet host = none ∧ ∃ l, net.lookup .inet6 host = some (addr :: l))

theorem port_bytes (e : Endian) (p : BitVec 16) :
    ∃ hi lo : Byte, memBytes e 2 (hton16 e p) = [hi, lo] ∧ hi.toNat * 256 + lo.toNat = p.toNat := by
  have h : memBytes e 2 (hton16 e p) = be 2 p.toNat := wire_be e .w16 p
  refine ⟨BitVec.ofNat 8 (p.toNat / 256), BitVec.ofNat 8 p.toNat, by rw [h]; rfl, ?_⟩
  have := p.isLt
  simp only [BitVec.toNat_ofNat]
  omega

theorem fam_bytes (e : Endian) (f : Fam) : ∃ a b : Byte, memBytes e 2 f.code = [a, b] ∧ loadMem e 16 [a, b] = f.code := by
  cases e <;> cases f <;> exact ⟨_, _, rfl, by decide⟩

/-- The kernel reads from the address what was put in, with the port cut to 16 bits. -/
theorem place_sockaddr (e : Endian) (f : Fam) (port : BitVec 32) (addr : List Byte)
    (h : addr.length = if f = .inet then 4 else 16) :
    ∃ b, sockaddr e f port addr = some b ∧ place e b = some ⟨f, addr, port.toNat % 65536⟩ := by
  obtain ⟨hi, lo, e1, e2⟩ := port_bytes e (port.setWidth 16)
  obtain ⟨a, b, e3, e4⟩ := fam_bytes e f
  have e5 : (port.setWidth 16).toNat = port.toNat % 65536 := by simp [BitVec.toNat_setWidth]
  rw [e5] at e2
  cases f with
  | inet =>
    simp only [if_true] at h
    obtain ⟨w, x, y, z, rfl⟩ : ∃ w x y z, addr = [w, x, y, z] := by
      match addr, h with
      | [w, x, y, z], _ => exact ⟨w, x, y, z, rfl⟩
    refine ⟨[a, b, hi, lo, w, x, y, z, 0, 0, 0, 0, 0, 0, 0, 0], ?_, ?_⟩
    · simp only [sockaddr, e1, e3]; rfl
    · simp only [place, e4, if_true, e2]; rfl
  | inet6 =>
    rw [if_neg (by decide)] at h
    refine ⟨[a, b, hi, lo, 0, 0, 0, 0] ++ (addr ++ [0, 0, 0, 0]), ?_, ?_⟩
    · simp only [sockaddr, e1, e3]
      simp [put, Fam.size, Fam.off, h, List.replicate]
    · simp only [List.cons_append, List.nil_append, place, e4, e2]
      rw [if_neg (by decide), if_pos trivial, if_pos (by simp [h])]
      simp [← h]

theorem connectTo_eq (e : Endian) (net : Net) (f : Fam) (port : BitVec 32) (alloc : Status) (addr : List Byte)
    (l : List (List Byte)) (h : addr.length = if f = .inet then 4 else 16) :
    connectTo e net f port alloc (addr :: l) =
      if net.socket f = false then some (ERROR_PSOCK_SOCKET_CREATE, none)
      else if net.accepts ⟨f, addr, port.toNat % 65536⟩ = false then some (ERROR_PSOCK_CONNECTION_REFUSED, none)
      else if alloc ≠ SUCCESS then some (alloc, none) else some (SUCCESS, some ⟨f, addr, port.toNat % 65536⟩) := by
  obtain ⟨b, e1, e2⟩ := place_sockaddr e f port addr h
  simp only [connectTo, e1, connect, e2, true_and]
  cases net.accepts ⟨f, addr, port.toNat % 65536⟩ <;> rfl

/-- C103 (part). On hosts of either byte order, with every resolver that answers as it should, and for every port: the
call has an outcome. It succeeds if and only if the host has an address, a socket can be made, the first address
accepts the connection at the port, and there is memory; the psock is then connected there. Missing: the port is the one
that was asked for only if it is below 65536, and the other addresses of the host are not tried. -/
theorem connect_partial (e : Endian) (net : Net) (hn : Resolver net) (host : List Byte) (port : BitVec 32) (alloc : Status) :
    ∃ st r, fromHostname e net host port alloc = some (st, r) ∧
      (∀ p, r = some p ↔ st = SUCCESS ∧ ∃ f addr, At net host f addr ∧ p = ⟨f, addr, port.toNat % 65536⟩) ∧
      (st = SUCCESS ↔ alloc = SUCCESS ∧ ∃ f addr, At net host f addr ∧ net.socket f = true ∧
        net.accepts ⟨f, addr, port.toNat % 65536⟩ = true) ∧
      (port.toNat < 65536 → ∀ p, r = some p → p.port = port.toNat) := by
  have main : ∀ f addr l, addr.length = (if f = Fam.inet then 4 else 16) →
      (∀ g a, At net host g a ↔ g = f ∧ a = addr) →
      ∃ st r, connectTo e net f port alloc (addr :: l) = some (st, r) ∧
      (∀ p, r = some p ↔ st = SUCCESS ∧ ∃ f addr, At net host f addr ∧ p = ⟨f, addr, port.toNat % 65536⟩) ∧
      (st = SUCCESS ↔ alloc = SUCCESS ∧ ∃ f addr, At net host f addr ∧ net.socket f = true ∧
        net.accepts ⟨f, addr, port.toNat % 65536⟩ = true) ∧
      (port.toNat < 65536 → ∀ p, r = some p → p.port = port.toNat) := by
    intro f addr l hl hat
    rw [connectTo_eq e net f port alloc addr l hl]
    have h1 : ERROR_PSOCK_SOCKET_CREATE ≠ SUCCESS := by decide
    have h2 : ERROR_PSOCK_CONNECTION_REFUSED ≠ SUCCESS := by decide
    have h3 : (∃ g a, At net host g a ∧ net.socket g = true ∧ net.accepts ⟨g, a, port.toNat % 65536⟩ = true) ↔
        net.socket f = true ∧ net.accepts ⟨f, addr, port.toNat % 65536⟩ = true := by
      constructor
      · rintro ⟨g, a, hg, h⟩
        obtain ⟨rfl, rfl⟩ := (hat g a).1 hg
        exact h
      · exact fun h => ⟨f, addr, (hat f addr).2 ⟨rfl, rfl⟩, h⟩
    have h4 : ∀ p, (∃ g a, At net host g a ∧ p = Place.mk g a (port.toNat % 65536)) ↔ p = ⟨f, addr, port.toNat % 65536⟩ := by
      intro p
      constructor
      · rintro ⟨g, a, hg, h⟩
        obtain ⟨rfl, rfl⟩ := (hat g a).1 hg
        exact h
      · exact fun h => ⟨f, addr, (hat f addr).2 ⟨rfl, rfl⟩, h⟩
    simp only [h3, h4]
    split
    · rename_i h; exact ⟨_, _, rfl, by simp [h1], by simp [h1, h], by simp⟩
    · rename_i h
      simp only [Bool.not_eq_false] at h
      split
      · rename_i h'; exact ⟨_, _, rfl, by simp [h2], by simp [h2, h'], by simp⟩
      · rename_i h'
        simp only [Bool.not_eq_false] at h'
        split
        · rename_i h''; exact ⟨_, _, rfl, by simp [h''], by simp [h''], by simp⟩
        · rename_i h''
          simp only [ne_eq, Decidable.not_not] at h''
          refine ⟨_, _, rfl, fun p => by simp [eq_comm], by simp [h, h', h''], fun hp p hpp => ?_⟩
          cases hpp
          exact Nat.mod_eq_of_lt hp
  simp only [fromHostname]
  cases h4 : net.lookup .inet host with
  | some l =>
    obtain ⟨hne, hlen⟩ := hn _ _ _ h4
    cases l with
    | nil => exact absurd rfl hne
    | cons addr l =>
      refine main .inet addr l (hlen addr List.mem_cons_self) fun g a => ?_
      simp only [At, h4]
      grind
  | none =>
    cases h6 : net.lookup .inet6 host with
    | none =>
      have h0 : ∀ g a, ¬ At net host g a := by
        intro g a
        simp [At, h4, h6]
      have h1 : ERROR_PSOCK_HOSTNAME_LOOKUP_FAILURE ≠ SUCCESS := by decide
      exact ⟨_, _, rfl, by simp [h1], by simp [h1, h0], by simp⟩
    | some l =>
      obtain ⟨hne, hlen⟩ := hn _ _ _ h6
      cases l with
      | nil => exact absurd rfl hne
      | cons addr l =>
        refine main .inet6 addr l (hlen addr List.mem_cons_self) fun g a => ?_
        simp only [At, h4, h6]
        grind

/-- C103 (part). A psock listens if and only if the address is one of IPv4 that can be bound, and all else succeeds; then
it listens there. Missing: addresses of IPv6. -/
theorem listen_partial (e : Endian) (net : Net) (name : List Byte) (alloc : Status) :
    (∀ p, (fromListenAddress e net name alloc).2 = some p ↔
      place e name = some p ∧ p.fam = .inet ∧ net.socket .inet = true ∧ net.binds p = true ∧ net.listens = true ∧
        alloc = SUCCESS) ∧
    ((fromListenAddress e net name alloc).1 = SUCCESS ↔ ∃ p, (fromListenAddress e net name alloc).2 = some p) := by
  have h1 : ERROR_PSOCK_CREATE_FROM_ADDRESS_SOCKET_CREATE ≠ SUCCESS := by decide
  have h2 : ERROR_PSOCK_CREATE_FROM_ADDRESS_BIND ≠ SUCCESS := by decide
  have h3 : ERROR_PSOCK_CREATE_FROM_ADDRESS_LISTEN ≠ SUCCESS := by decide
  have h4 : ERROR_PSOCK_CREATE_FROM_ADDRESS_CLOSE ≠ SUCCESS := by decide
  have hc : ∀ st, st ≠ SUCCESS → (closing net st).1 ≠ SUCCESS := by
    intro st hst
    simp only [closing]
    split
    · exact hst
    · exact h4
  have hc2 : ∀ st, (closing net st).2 = none := fun _ => rfl
  unfold fromListenAddress
  cases hs : net.socket .inet with
  | false => simp [h1]
  | true =>
    cases hp : place e name with
    | none => simp [hc, hc2, h2]
    | some p =>
      simp only [Bool.true_eq_false, if_false]
      split
      · rename_i h
        refine ⟨fun q => ?_, by simp [hc, hc2, h2]⟩
        simp only [hc2]
        grind
      · split
        · rename_i h; simp [hc, hc2, h3, h]
        · split
          · rename_i h; simp [hc, hc2, h]
          · grind

/-! ### The code violates the claim -/

/-- A host with two IPv4 addresses and an IPv6 address. Only the second IPv4 address and the IPv6 address accept at port 80,
the first only at port 81. -/
def net₁ : Net where
  lookup f _ := match f with | .inet => some [[10, 0, 0, 1], [10, 0, 0, 2]] | .inet6 => some [[0, 0, 0, 0, 0, 0, 0, 0, 0, 0, 0, 0, 0, 0, 0, 1]]
  socket _ := true
  accepts p := p.port = 80 ∧ p.addr ≠ [10, 0, 0, 1] ∨ p.port = 81
  binds _ := true
  listens := true
  closes := true

theorem net₁_resolver : Resolver net₁ := by
  intro f host l h
  cases f <;> cases h <;> exact ⟨by simp, by decide⟩

/-- A port that does not fit is cut: who asks for port 65617 is connected to port 81. -/
theorem connect_port_violated (e : Endian) :
    fromHostname e net₁ [] 65617 SUCCESS = some (SUCCESS, some ⟨.inet, [10, 0, 0, 1], 81⟩) := by
  cases e <;> decide

/-- The call is refused although another address of the host, and its IPv6 address, would accept. -/
theorem connect_refused_violated (e : Endian) :
    fromHostname e net₁ [] 80 SUCCESS = some (ERROR_PSOCK_CONNECTION_REFUSED, none) ∧
    net₁.accepts ⟨.inet, [10, 0, 0, 2], 80⟩ = true ∧
    net₁.accepts ⟨.inet6, [0, 0, 0, 0, 0, 0, 0, 0, 0, 0, 0, 0, 0, 0, 0, 1], 80⟩ = true := by
  cases e <;> decide

/-- No psock ever listens at an IPv6 address. -/
theorem listen_inet6_violated (e : Endian) (net : Net) (name : List Byte) (alloc : Status) (p : Place)
    (hp : place e name = some p) (h6 : p.fam = .inet6) : (fromListenAddress e net name alloc).1 ≠ SUCCESS := by
  intro h
  obtain ⟨q, hq⟩ := (listen_partial e net name alloc).2.1 h
  obtain ⟨h1, h2, _⟩ := ((listen_partial e net name alloc).1 q).1 hq
  rw [hp] at h1
  cases h1
  rw [h6] at h2
  nomatch h2

/-! ### Cases -/

example (e : Endian) : fromHostname e net₁ [] 81 SUCCESS = some (SUCCESS, some ⟨.inet, [10, 0, 0, 1], 81⟩) := by
  cases e <;> decide

example : fromListenAddress .little net₁ ([2, 0, 0x23, 0x29] ++ List.replicate 12 0) SUCCESS =
    (SUCCESS, some ⟨.inet, [0, 0, 0, 0], 9001⟩) := by decide

example : ∃ p, place .little ([10, 0, 0x23, 0x29] ++ List.replicate 24 0) = some p ∧ p.fam = .inet6 := ⟨_, rfl, rfl⟩

end Rcpr.Connect
