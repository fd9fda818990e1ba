import Verif.PsockBuf

/-!
Model of where a psock is connected or listens: `psock_create_from_hostname_and_port.c` and
`psock_create_from_listen_address.c` in `src/psock`. The bytes of the address are as on a 64-bit Linux. The life of the
objects is in `Life`.
-/
namespace Rcpr.Connect

open Rcpr Rcpr.Psock

/-- Address families. As in src/psock/psock_create_from_hostname_and_port.c:80 and 113. -/
inductive Fam | inet | inet6
  deriving DecidableEq

/-- `AF_INET` and `AF_INET6` (sys/socket.h) -/
def Fam.code : Fam → BitVec 16
  | .inet => 2 | .inet6 => 10

/-- A place in the network: family, address, port. Not in the code: the network. -/
structure Place where
  fam : Fam
  addr : List Byte
  port : Nat
  deriving DecidableEq

/-- The world: what `gethostbyname2` finds (the bytes of the addresses, all of `h_length`), whether a socket can be made,
which places accept a connection or can be bound, whether `listen` and `close` succeed. Not in the code: parameters. -/
structure Net where
  lookup : Fam → List Byte → Option (List (List Byte))
  socket : Fam → Bool
  accepts : Place → Bool
  binds : Place → Bool
  listens : Bool
  closes : Bool

/-- How the kernel reads a `struct sockaddr` (netinet/in.h): `sin_port` is big-endian. Not in the code: the kernel. -/
def place (e : Endian) : List Byte → Option Place
  | f0 :: f1 :: p0 :: p1 :: rest =>
    if loadMem e 16 [f0, f1] = Fam.code .inet then
      if rest.length = 12 then some ⟨.inet, rest.take 4, p0.toNat * 256 + p1.toNat⟩ else none
    else if loadMem e 16 [f0, f1] = Fam.code .inet6 then
      if rest.length = 24 then some ⟨.inet6, (rest.drop 4).take 16, p0.toNat * 256 + p1.toNat⟩ else none
    else none
  | _ => none

/-- `sizeof(struct sockaddr_in)`, `sizeof(struct sockaddr_in6)`, and where the address is in them (netinet/in.h) -/
def Fam.size : Fam → Nat
  | .inet => 16 | .inet6 => 28

/-- `offsetof` of `sin_addr` and `sin6_addr` (netinet/in.h) -/
def Fam.off : Fam → Nat
  | .inet => 4 | .inet6 => 8

/-- The address that is handed to `connect` (src/psock/psock_create_from_hostname_and_port.c:85-89 and 128-132):
`memset`, family, `htons(port)`, `memcpy` of `h_length` bytes. `htons` takes 16 bits. -/
def sockaddr (e : Endian) (f : Fam) (port : BitVec 32) (addr : List Byte) : Option (List Byte) :=
  match put (List.replicate f.size 0) 0 (memBytes e 2 f.code) with
  | none => none
  | some b =>
    match put b 2 (memBytes e 2 (hton16 e (port.setWidth 16))) with
    | none => none
    | some b => put b f.off addr

/-- What the kernel says to `connect` on a socket of the family. Not in the code: the kernel. -/
def connect (e : Endian) (net : Net) (f : Fam) (b : List Byte) : Option Place :=
  match place e b with
  | none => none
  | some p => if p.fam = f ∧ net.accepts p = true then some p else none

/-- From the resolved name on (src/psock/psock_create_from_hostname_and_port.c:81-105 and 120-140, 143-158), in one family; `alloc`
answers `psock_create_from_descriptor`. In the IPv6 branch the socket is made first, which makes no difference here. -/
def connectTo (e : Endian) (net : Net) (f : Fam) (port : BitVec 32) (alloc : Status) (list : List (List Byte)) :
    Option (Status × Option Place) :=
  match list with
  | [] => none
  | addr :: _ =>
    match sockaddr e f port addr with
    | none => none
    | some b =>
      if net.socket f = false then some (ERROR_PSOCK_SOCKET_CREATE, none)
      else
        match connect e net f b with
        | none => some (ERROR_PSOCK_CONNECTION_REFUSED, none)
        | some p => if alloc ≠ SUCCESS then some (alloc, none) else some (SUCCESS, some p)

/-- `psock_create_from_hostname_and_port` (src/psock/psock_create_from_hostname_and_port.c:65-159): the status, and to
what the psock is connected. -/
def fromHostname (e : Endian) (net : Net) (host : List Byte) (port : BitVec 32) (alloc : Status) :
    Option (Status × Option Place) :=
  match net.lookup .inet host with
  | some l => connectTo e net .inet port alloc l
  | none =>
    match net.lookup .inet6 host with
    | none => some (ERROR_PSOCK_HOSTNAME_LOOKUP_FAILURE, none)
    | some l => connectTo e net .inet6 port alloc l

/-- The end of a failing call (src/psock/psock_create_from_listen_address.c:111-119). -/
def closing (net : Net) (st : Status) : Status × Option Place :=
  (if net.closes then st else ERROR_PSOCK_CREATE_FROM_ADDRESS_CLOSE, none)

/-- `psock_create_from_listen_address` (src/psock/psock_create_from_listen_address.c:62-120): the status, and where the psock
listens. The socket is an IPv4 socket whatever the address is; the kernel binds no address of another family to it. -/
def fromListenAddress (e : Endian) (net : Net) (name : List Byte) (alloc : Status) : Status × Option Place :=
  if net.socket .inet = false then (ERROR_PSOCK_CREATE_FROM_ADDRESS_SOCKET_CREATE, none)
  else
    match place e name with
    | none => closing net ERROR_PSOCK_CREATE_FROM_ADDRESS_BIND
    | some p =>
      if p.fam ≠ .inet ∨ net.binds p = false then closing net ERROR_PSOCK_CREATE_FROM_ADDRESS_BIND
      else if net.listens = false then closing net ERROR_PSOCK_CREATE_FROM_ADDRESS_LISTEN
      else if alloc ≠ SUCCESS then closing net alloc
      else (SUCCESS, some p)

end Rcpr.Connect
