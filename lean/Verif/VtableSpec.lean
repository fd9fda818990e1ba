import Verif.Vtable

/-!
What a user of the run-time check expects, stated with the layout of the section that the linker produces and
without the functions of the model except the entry points.
-/
namespace Rcpr.Vtable

/-- The calls through a vtable that a client of the library can cause on an object of its own. -/
inductive Entry
  | release | allocate | reclaim | reallocate | control
  | read | write | accept | sendmsg | recvmsg | setsockopt
  deriving DecidableEq

/-- Run an entry point on the object at `r`. -/
def Entry.run (e : Entry) (c : Cfg) (m : Mem) (r : Word) : Out :=
  match e with
  | .release => resourceRelease c m r
  | .allocate => (allocatorAllocate c m r).1
  | .reclaim => allocatorReclaim c m r
  | .reallocate => allocatorReallocate c m r
  | .control => allocatorControl c m r
  | .read => psockRead c m r
  | .write => psockWrite c m r
  | .accept => psockAccept c m r
  | .sendmsg => psockSendmsg c m r
  | .recvmsg => psockRecvmsg c m r
  | .setsockopt => psockSetsockopt c m r

/-- Which member of the table the entry point is documented to call: 0 is the release method. -/
def Entry.slot : Entry → Nat
  | .release => 0
  | .allocate => 1
  | .reclaim => 2
  | .reallocate => 3
  | .control => 4
  | .read => 1
  | .write => 2
  | .accept => 3
  | .sendmsg => 4
  | .recvmsg => 5
  | .setsockopt => 6

/-- What the entry point is documented to answer when the member is NULL; `none`: the member must not be
NULL. -/
def Entry.undefined : Entry → Option Status
  | .control => some ERROR_GENERAL_CONTROL_KEY_INVALID
  | .accept | .sendmsg | .recvmsg | .setsockopt => some ERROR_PSOCK_METHOD_UNDEFINED
  | _ => none

/-- A table that was defined with RCPR_VTABLE: where it is and the methods it holds. -/
structure Table where
  base : Nat
  methods : List Word

/-- The section `[start, stop)` holds these tables, and zeros between them where the compiler aligns a table,
in the lower half of the address space. -/
structure Layout (c : Cfg) (m : Mem) (ts : List Table) : Prop where
  order : c.start.toNat ≤ c.stop.toNat
  user : c.stop.toNat < 2 ^ 63
  inside : ∀ t ∈ ts, c.start.toNat ≤ t.base ∧ t.base + 8 * t.methods.length ≤ c.stop.toNat ∧ t.methods ≠ []
  stored : ∀ t ∈ ts, ∀ i f, t.methods[i]? = some f → m (BitVec.ofNat 64 (t.base + 8 * i)) = some f
  covers : ∀ a, a % 8 = 0 → c.start.toNat ≤ a → a < c.stop.toNat →
    (∃ t ∈ ts, t.base ≤ a ∧ a < t.base + 8 * t.methods.length) ∨ m (BitVec.ofNat 64 a) = some 0
  aligned : ∀ t ∈ ts, t.base % 8 = 0

/-- The check is compiled in and does something when it fails. -/
def Cfg.armed (c : Cfg) : Prop := c.enforce = true ∧ (c.checkAssert = true → c.ndebug = false)

/-- The answer of the check: a status or the end of the process. -/
def Cfg.refusal (c : Cfg) : Out := if c.checkAssert then .abort else .ret ERROR_GENERAL_BAD_VTABLE

/-- The documented promise (include/rcpr/psock.h:300-303) for one entry point: whatever the heap holds, a call
happens only if the pointer in the object points to a table of the section, and it goes to the member of that
table which the entry point names. -/
def Hardened (c : Cfg) (e : Entry) : Prop :=
  ∀ m ts r vt f, Layout c m ts → m r = some vt → e.run c m r = .call f →
    ∃ t ∈ ts, vt.toNat = t.base ∧ t.methods[e.slot]? = some f

/-- The same for the second hop of a psock made from user methods: its method `run` calls only through a table
of the section. -/
def UserHardened (c : Cfg) (run : Word → Mem → Word → Out) (slot : Nat) : Prop :=
  ∀ o m ts s uvt f, Layout c m ts → m (s + o) = some uvt → run o m s = .call f →
    ∃ t ∈ ts, uvt.toNat = t.base ∧ t.methods[slot]? = some f

end Rcpr.Vtable
