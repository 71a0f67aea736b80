import Verif.Model.Bytes
/-!
# The endpoint: `/repo/pkg/endpoint/endpoint.go`

The address given by `--listen` is split into network and address, and listened on. For Unix sockets the file system
matters: whatever is at the address is removed before, and the permissions of the socket are restricted after. Between any two
system calls other processes may connect. TLS is not used at all (`endpoint.go:43-54`); which services are registered
(`endpoint.go:81-90`) is not modelled.

Of the operating system is assumed: `bind` gives a new socket the permissions 0777 without those of the umask; connecting needs
write permission, checked at the moment of connecting only; connections made before they are accepted wait in the backlog.
-/

namespace Verif

/-- `"://"` -/
def schemeSep : Bytes := [58, 47, 47]

/-- `strings.Cut(s, "://")` (standard library): what is before and after the first occurrence. -/
def cutScheme : Bytes → Option (Bytes × Bytes)
  | [] => none
  | c :: s =>
    if schemeSep.isPrefixOf (c :: s) then some ([], (c :: s).drop 3)
    else (cutScheme s).map fun x => (c :: x.1, x.2)

/-- `networkAndAddress` (`endpoint.go:108-114`). -/
def networkAndAddress (s : Bytes) : Bytes × Bytes :=
  match cutScheme s with
  | some x => x
  | none => ([], s)

/-- `"unix"` -/
def unixNet : Bytes := [117, 110, 105, 120]

/-- `K8sDqliteSocket`, `"unix://kine.sock"` (`endpoint.go:20`). -/
def defaultSocket : Bytes := [117, 110, 105, 120, 58, 47, 47, 107, 105, 110, 101, 46, 115, 111, 99, 107]

/-- The address listened on (`endpoint.go:57-60`). -/
def listenAddress (s : Bytes) : Bytes := if s = [] then defaultSocket else s

/-- Who wants to connect: the user the server runs as, somebody of its group, anybody else. (The superuser may always.) -/
inductive Who where
  | owner
  | group
  | other
deriving DecidableEq, Repr

/-- The permission bit that allows writing. -/
def Who.writeBit : Who → Nat
  | .owner => 7
  | .group => 4
  | .other => 1

/-- What is in the file system at the address. -/
inductive SockEntry where
  /-- not a socket of ours; `removable`: `os.Remove` works on it -/
  | other (removable : Bool)
  /-- our socket, with its permissions -/
  | socket (mode : Nat)
deriving DecidableEq, Repr

/-- Where `createListener` is (`endpoint.go:91-106`). -/
inductive ListenPc where
  | remove
  | bind
  | listen
  /-- the deferred `os.Chmod`; the flag tells whether `net.Listen` succeeded -/
  | chmod (ok : Bool)
  | done (ok : Bool)
deriving DecidableEq, Repr

/-- The endpoint with a socket in the file system. -/
structure ListenSys where
  /-- the network is `"unix"`, and not `"unixpacket"` -/
  unix : Bool
  umask : Nat
  pc : ListenPc
  entry : Option SockEntry
  /-- the kernel accepts connections -/
  listening : Bool
  /-- ghost: who has connected -/
  clients : List Who
  /-- ghost: connections the server has accepted and serves -/
  served : List Who
deriving DecidableEq, Repr

/-- `createListener` is called (`endpoint.go:91-94`); `entry`: there is a file at the address, which can be removed or not. -/
def ListenSys.init (address : Bytes) (umask : Nat) (entry : Option Bool) : ListenSys :=
  let unix := (networkAndAddress (listenAddress address)).1 = unixNet
  { unix := unix, umask := umask, pc := if unix then .remove else .bind, entry := entry.map .other, listening := false,
    clients := [], served := [] }

/-- The permissions of a new socket: 0777 without the umask. -/
def newSocketMode (umask : Nat) : Nat := 0o777 ^^^ (0o777 &&& umask)

/-- What follows the listening: the deferred function if the network is `"unix"` (`endpoint.go:98-102`). -/
def ListenSys.after (s : ListenSys) (ok : Bool) : ListenPc := if s.unix then .chmod ok else .done ok

/-- The steps. -/
inductive ListenStep : ListenSys → ListenSys → Prop where
  /-- `os.Remove` (`endpoint.go:95`) -/
  | remove (s : ListenSys) (e : SockEntry) (h : s.pc = .remove) (he : s.entry = some e) (hr : e ≠ .other false) :
      ListenStep s { s with pc := .bind, entry := none }
  /-- `os.Remove` fails, which is logged at most (`endpoint.go:95-97`) -/
  | notRemoved (s : ListenSys) (h : s.pc = .remove) : ListenStep s { s with pc := .bind }
  /-- `bind` in `net.Listen` (`endpoint.go:105`) -/
  | bind (s : ListenSys) (h : s.pc = .bind) (he : s.entry = none) :
      ListenStep s { s with pc := .listen, entry := some (.socket (newSocketMode s.umask)) }
  | notBound (s : ListenSys) (h : s.pc = .bind) : ListenStep s { s with pc := s.after false }
  /-- `listen` in `net.Listen` -/
  | listen (s : ListenSys) (h : s.pc = .listen) : ListenStep s { s with pc := s.after true, listening := true }
  | notListening (s : ListenSys) (h : s.pc = .listen) : ListenStep s { s with pc := s.after false }
  /-- `os.Chmod` (`endpoint.go:99`) -/
  | chmod (s : ListenSys) (ok : Bool) (m : Nat) (h : s.pc = .chmod ok) (he : s.entry = some (.socket m)) :
      ListenStep s { s with pc := .done ok, entry := some (.socket 0o600) }
  /-- `os.Chmod` on whatever else is there -/
  | chmodOther (s : ListenSys) (ok r : Bool) (h : s.pc = .chmod ok) (he : s.entry = some (.other r)) :
      ListenStep s { s with pc := .done ok }
  /-- `os.Chmod` fails; its error is returned, the listener is not closed (`endpoint.go:99-101`) -/
  | notChanged (s : ListenSys) (ok : Bool) (h : s.pc = .chmod ok) : ListenStep s { s with pc := .done false }
  /-- somebody connects -/
  | connect (s : ListenSys) (w : Who) (m : Nat) (h : s.listening = true) (he : s.entry = some (.socket m))
      (hp : m.testBit w.writeBit = true) : ListenStep s { s with clients := s.clients ++ [w] }
  /-- the server accepts a waiting connection (`endpoint.go:66-71`) -/
  | accept (s : ListenSys) (w : Who) (h : s.pc = .done true) (hn : s.served.length < s.clients.length)
      (hw : s.clients[s.served.length]? = some w) : ListenStep s { s with served := s.served ++ [w] }

/-- Reachable states, for some address, umask and content of the directory. -/
inductive ListenReachable (address : Bytes) (umask : Nat) (entry : Option Bool) : ListenSys → Prop where
  | init : ListenReachable address umask entry (ListenSys.init address umask entry)
  | step {a b : ListenSys} : ListenReachable address umask entry a → ListenStep a b → ListenReachable address umask entry b

end Verif
