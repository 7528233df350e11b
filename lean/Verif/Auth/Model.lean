/-!
Model of authentication and of the gate in front of every request.

Source: `/repo/pydevd.py` class `_Authentication` (518-553), `on_disconnect` (911-917);
`/repo/_pydevd_bundle/pydevd_process_net_command_json.py` `process_net_command_json` (150-221);
`/repo/_pydevd_bundle/pydevd_process_net_command.py` `process_net_command` (31-81), `cmd_authenticate`
(83-89).

Simplifications: a token is a `List Char`; what a request does is the abstract event "executed"; the
requests that end the session (`disconnect`, which calls `logout` through `notify_disconnect`) are a
separate constructor. The access token does not change during the session.
-/

namespace Auth

abbrev Token := List Char

/-- `_Authentication` without the two configured tokens. -/
structure Auth where
  /-- `access_token` -/
  token : Option Token
  /-- `_authenticated` -/
  authenticated : Option Bool := none
  /-- `_wrong_attempts` -/
  wrong : Nat := 0
deriving DecidableEq, Repr

/-- `is_authenticated` (535-538). -/
def isAuthenticated (a : Auth) : Bool :=
  match a.authenticated with
  | none => a.token.isNone
  | some b => b

/-- `login` (540-548); the token given by a DAP client may be `None`. -/
def login (a : Auth) (t : Option Token) : Auth :=
  if 10 ≤ a.wrong then a
  else if t = a.token then { a with authenticated := some true, wrong := 0 }
  else { a with authenticated := some false, wrong := a.wrong + 1 }

/-- `logout` (550-552). -/
def logout (a : Auth) : Auth := { a with authenticated := none, wrong := 0 }

/-- A message from the client. -/
inductive Req where
  /-- DAP `pydevdAuthorize` with its `debugServerAccessToken` -/
  | dapAuthorize (t : Option Token)
  /-- any other DAP request that has a handler, `uid` distinguishes requests -/
  | dap (uid : Nat)
  /-- the DAP `disconnect` request -/
  | dapDisconnect (uid : Nat)
  /-- a DAP request with no handler (201-203) -/
  | dapUnknown (uid : Nat)
  /-- line-protocol `CMD_AUTHENTICATE` -/
  | lineAuthenticate (t : Token)
  /-- any other line-protocol command -/
  | line (uid : Nat)
deriving DecidableEq, Repr

/-- What the debugger does in reaction. -/
inductive Out where
  /-- "Client not authenticated." error sent -/
  | refused
  /-- the client access token (if any) is sent -/
  | authorized
  /-- the handler of the request runs -/
  | executed (r : Req)
deriving DecidableEq, Repr

/-- Processing of one message. -/
def step (a : Auth) (r : Req) : Auth × List Out :=
  match r with
  | .dapAuthorize t =>                                   -- 207-221, 223-230
    let a := login a t
    if isAuthenticated a then (a, [.authorized]) else (a, [.refused])
  | .dap _ => if isAuthenticated a then (a, [.executed r]) else (a, [.refused])   -- 213-221
  | .dapDisconnect _ =>
    if isAuthenticated a then (logout a, [.executed r]) else (a, [.refused])
  | .dapUnknown _ => (a, [])                             -- 201-203
  | .lineAuthenticate t =>                               -- 41, 83-89
    let a := login a (some t)
    if isAuthenticated a then (a, [.authorized]) else (a, [.refused])
  | .line _ => if isAuthenticated a then (a, [.executed r]) else (a, [.refused])  -- 41-44

/-- State after a history of messages. -/
def after (a : Auth) (rs : List Req) : Auth := rs.foldl (fun a r => (step a r).1) a

/-- A new session configured with the given access token. -/
def session (token : Option Token) : Auth := { token }

end Auth
