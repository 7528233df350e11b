import Verif.Common.Lit
import Verif.Common.PyInt
/-!
Model of how the debugger gets its socket.

Source: `/repo/_pydevd_bundle/pydevd_comm.py` `create_server_socket` (451-465), `start_client` (490-537);
`/repo/_pydev_bundle/pydev_localhost.py` `get_localhost` (9-34).

Simplifications: addresses of other families than IPv4 and IPv6 are `other`; which exception is raised is not modelled, except where said. What the system
does is given by the structures below. Ports and hosts are passed on unchanged and left out.
-/

namespace Connect

abbrev Str := List Char

inductive Fam
  | inet
  | inet6
  | other
deriving DecidableEq

/-- what comes of setting an option: it is set, it is not available (`AttributeError`, `OSError`), or another exception -/
inductive Opt
  | set
  | missing
  | raises
deriving DecidableEq

/-- the loop over the addresses (495-502) -/
def familyLoop (cur : Fam) : List Fam → Fam
  | [] => cur
  | f :: fs =>
    if f = .inet then f
    else if f = .inet6 then familyLoop f fs
    else familyLoop cur fs

structure Net where
  /-- the families of the addresses of the host; `none`: `getaddrinfo` raises -/
  addrs : Option (List Fam)
  /-- whether a socket can be made -/
  create : Fam → Bool
  /-- the options of the socket (510-525) -/
  options : List Opt
  /-- `PYDEVD_CONNECT_TIMEOUT` -/
  env : Option Str
  /-- whether the other side accepts within so many seconds -/
  accepts : Fam → Int → Bool

/-- what is done with the socket -/
inductive Ev
  | created (f : Fam)
  | timeout (t : Option Int)
  | connected
  | closed
deriving DecidableEq

/-- the timeout (529): `none` if it is no number -/
def timeout (env : Option Str) : Option Int :=
  match env with
  | none => some 10
  | some s => Py.parseInt s

/-- `start_client` (490-537): what is done, and whether the socket is returned -/
def startClient (n : Net) : List Ev × Bool :=
  match n.addrs with
  | none => ([], false)
  | some as =>
    let f := familyLoop .inet as
    if n.create f then
      if n.options.any (· == .raises) then ([.created f], false)
      else
        match timeout n.env with
        | none => ([.created f], false)
        | some t =>
          if t < 0 then ([.created f], false)
          else if n.accepts f t then ([.created f, .timeout (some t), .connected, .timeout none], true)
          else ([.created f, .timeout (some t)], false)
    else ([], false)

/-- what comes of `create_server_socket`: the socket, the system's error, or an `UnboundLocalError` instead of it -/
inductive Server
  | socket
  | error
  | unbound
deriving DecidableEq

/-- `create_server_socket` (451-465): whether a socket can be made, its option set, and the address bound -/
def serverSocket (make option bind : Bool) : List Ev × Server :=
  if make then
    if option && bind then ([.created .inet, .timeout none], .socket)
    else ([.created .inet, .closed], .error)
  else ([], .unbound)

/-- what `getaddrinfo("localhost", ...)` gives at a call of `get_localhost`: the hosts, or an exception -/
abbrev Lookup := Option (List Str)

/-- the loop over the addresses (23-27) -/
def hasLoopback : List Str → Bool
  | [] => false
  | h :: hs => if h = c!"127.0.0.1" then true else hasLoopback hs

/-- `get_localhost` (9-34): the cache afterwards, and what is returned -/
def getLocalhost (cache : Option Str) (l : Lookup) : Option Str × Option Str :=
  let cache :=
    match cache with
    | some h => some h
    | none =>
      match l with
      | none => some c!"127.0.0.1"
      | some hs => if hasLoopback hs then some c!"127.0.0.1" else some c!"localhost"
  (cache, cache)

/-- what the calls of a run return -/
def localhosts (cache : Option Str) : List Lookup → List (Option Str)
  | [] => []
  | l :: ls => (getLocalhost cache l).2 :: localhosts (getLocalhost cache l).1 ls

end Connect
