/-!
# SSH authentication, channels and subsystems on the server (src/session_server_ssh.c:552-1764)

One SSH connection with the NETCONF sessions on its channels. What libssh does with a reply is not modelled, only which reply is chosen.
-/

namespace Verif.SshAuth

/-- A C string. (src/session_server_ssh.c:561) -/
abbrev Text := List Char

/-! ## Passwords -/

/-- A passwd entry (src/session_server_ssh.c:563), only the password field. -/
structure Passwd where
  pass : Text
  deriving DecidableEq, Repr

/-- A shadow entry (src/session_server_ssh.c:564): hash (or NULL) and day of expiration (−1 is none). -/
structure Shadow where
  pass : Option Text
  expire : Int
  deriving DecidableEq, Repr

/-- How keyboard-interactive answers are checked (src/session_server_ssh.c:1318-1331): an application callback or PAM (both external, given by their verdict
for the user and the answers) or the system password. -/
inductive Kbd where
  | callback (f : Text → List Text → Bool)
  | pam (f : Text → List Text → Bool)
  | system

/-- What the machine provides: `crypt_r`, user databases, the current day, public keys from the authorized keys file (`none` is an error); keys are abstract.
(src/session_server_ssh.c:571-585, 649, 1256) -/
structure Env where
  crypt : (password salt : Text) → Option Text
  passwd : Text → Option Passwd
  shadow : Text → Option Shadow
  today : Int
  systemKeys : Text → Option (List (Option Nat))
  kbd : Kbd

/-- `nc_server_ssh_get_pwd_hash` (src/session_server_ssh.c:560-614). -/
def getPwdHash (e : Env) (user : Text) : Option Text :=
  match e.passwd user with
  | none => none
  | some p =>
    let hash : Option Text :=
      if p.pass = ['x'] then
        match e.shadow user with
        | none => none
        | some s => if s.expire > -1 ∧ s.expire ≤ e.today then none else s.pass
      else some p.pass
    match hash with
    | none => none
    | some h => if h = ['*'] ∨ h = ['!'] then none else if h = ['*', 'N', 'P', '*'] then none else some h

/-- `nc_server_ssh_compare_password` (src/session_server_ssh.c:626-656); `true` is a match. -/
def comparePassword (e : Env) (stored received : Text) : Bool :=
  if stored = [] then received = []
  else if ['$', '0', '$'].isPrefixOf stored then stored.drop 3 = received
  else
    match e.crypt received stored with
    | none => false
    | some h => h = stored

/-! ## Authentication -/

/-- Where the public keys of a client are (src/session_server_ssh.c:1254-1271); the truststore content is given, `none` is a dangling reference. -/
inductive Store where
  | local (keys : List (Option Nat))
  | truststore (keys : Option (List (Option Nat)))
  | system
  deriving DecidableEq, Repr

/-- A configured client, `struct nc_auth_client` (src/session_p.h:170-185). -/
structure Client where
  name : Text
  store : Store
  password : Option Text
  kbdint : Bool
  none : Bool
  deriving DecidableEq, Repr

/-- The endpoint options used here (src/session_server_ssh.c:1458-1486): clients of the endpoint and of the endpoints referenced from it, in order. That the chain is
finite is C27 and C56. -/
structure Opts where
  chain : List (List Client)
  deriving DecidableEq, Repr

/-- Authentication methods (src/session_server_ssh.c:1534-1547). -/
inductive Method where
  | none
  | password
  | publickey
  | interactive
  | other
  deriving DecidableEq, Repr

/-- The signature of a public key request (src/session_server_ssh.c:1280-1281): absent, verified by libssh, or wrong. -/
inductive Sig where
  | absent
  | valid
  | wrong
  deriving DecidableEq, Repr

/-- An authentication request (src/session_server_ssh.c:1455, 1225, 1274, 1318-1327). -/
structure AuthMsg where
  user : Text
  method : Method
  password : Text
  key : Nat
  sig : Sig
  answers : List Text
  deriving DecidableEq, Repr

/-- Result of one method: 0 success, 1 failure, −1 failure with a reply sent (src/session_server_ssh.c:1531-1533). -/
inductive Ret where
  | ok
  | fail
  | replied
  deriving DecidableEq, Repr

/-- `nc_server_ssh_auth_none` (src/session_server_ssh.c:1171-1184); `none` is a system user. -/
def authNone (c : Option Client) : Ret :=
  match c with
  | some c => if c.none then .ok else .replied
  | none => .replied

/-- `nc_server_ssh_auth_password` (src/session_server_ssh.c:1195-1232). -/
def authPassword (e : Env) (user : Text) (c : Option Client) (m : AuthMsg) : Ret :=
  match (match c with | some c => c.password | none => getPwdHash e user) with
  | none => .fail
  | some p => if comparePassword e p m.password then .ok else .fail

/-- `nc_server_ssh_auth_pubkey_compare_key` (src/session_server_ssh.c:1132-1161); unusable configured keys are `none`. -/
def compareKey (key : Nat) (keys : List (Option Nat)) : Bool :=
  keys.any (fun k => k == some key)

/-- The authorized keys (src/session_server_ssh.c:1253-1271). -/
def authKeys (e : Env) (user : Text) (c : Option Client) : Option (List (Option Nat)) :=
  match c with
  | none => e.systemKeys user
  | some c =>
    match c.store with
    | .system => e.systemKeys user
    | .local ks => some ks
    | .truststore ks => ks

/-- `nc_server_ssh_auth_pubkey` (src/session_server_ssh.c:1243-1297). -/
def authPubkey (e : Env) (user : Text) (c : Option Client) (m : AuthMsg) : Ret :=
  match authKeys e user c with
  | none => .fail
  | some ks =>
    if ¬ compareKey m.key ks then .fail
    else if m.sig = .absent then .replied
    else .ok

/-- `nc_server_ssh_auth_kbdint_system` (src/session_server_ssh.c:918-967) with the answers that came. -/
def kbdintSystem (e : Env) (user : Text) (m : AuthMsg) : Bool :=
  match getPwdHash e user with
  | none => false
  | some p =>
    match m.answers with
    | [a] => comparePassword e p a
    | _ => false

/-- `nc_server_ssh_auth_kbdint` (src/session_server_ssh.c:1308-1334). -/
def authKbdint (e : Env) (user : Text) (c : Option Client) (m : AuthMsg) : Ret :=
  if (match c with | some c => !c.kbdint | none => false) then .fail
  else
    let r := match e.kbd with
      | .callback f => f user m.answers
      | .pam f => f user m.answers
      | .system => kbdintSystem e user m
    if r then .ok else .fail

/-- Session statuses used here (src/session.h:78-81). -/
inductive Status where
  | starting
  | closing
  | invalid
  | running
  deriving DecidableEq, Repr

/-- Authentication state, `struct nc_auth_state` (src/session_p.h:160-165); bit fields are lists. -/
structure AuthState where
  methods : List Method
  methodCount : Nat
  successMethods : List Method
  successCount : Nat
  deriving DecidableEq, Repr

/-- A NETCONF session of the connection (src/session_p.h:686-781): what the code here uses. Channels are numbered by libssh. -/
structure Sess where
  status : Status
  channel : Option Nat
  subsys : Bool
  authenticated : Bool
  username : Option Text
  deriving DecidableEq, Repr

/-- The reply to a message (src/session_server_ssh.c:1283, 1557, 1560, 1569, 1747): denied, key would be accepted, partial success, success. -/
inductive Reply where
  | denied
  | pkOk
  | partialSuccess
  | success
  deriving DecidableEq, Repr

/-- The accepted methods of a client (src/session_server_ssh.c:1493-1512). -/
def clientMethods (c : Client) : List Method :=
  (match c.store with
    | .local ks => if ks = [] then [] else [.publickey]
    | .truststore _ => [.publickey]
    | .system => [.publickey]) ++
  (if c.password.isSome then [.password] else []) ++
  (if c.kbdint then [.interactive] else []) ++
  (if c.none then [.none] else [])

/-- The authentication state after the first request of a known user (src/session_server_ssh.c:1488-1520). -/
def initState (c : Option Client) (a : AuthState) : AuthState :=
  match c with
  | some c => { a with methods := a.methods ++ clientMethods c, methodCount := a.methodCount + (clientMethods c).length }
  | none => { a with methods := [.publickey, .password, .interactive], methodCount := 1 }

/-- The methods (src/session_server_ssh.c:1534-1547); `none` is an unsupported one. -/
def tryMethod (e : Env) (user : Text) (c : Option Client) (m : AuthMsg) : Option Ret :=
  match m.method with
  | .none => some (authNone c)
  | .password => some (authPassword e user c m)
  | .publickey => some (authPubkey e user c m)
  | .interactive => some (authKbdint e user c m)
  | .other => none

/-- The second part of `nc_server_ssh_auth`, with a known user (src/session_server_ssh.c:1488-1573). Result: reply and new state. -/
def authKnown (e : Env) (c : Option Client) (m : AuthMsg) (s : Sess) (a : AuthState) : Reply × Sess × AuthState :=
  let cont (s : Sess) (a : AuthState) : Reply × Sess × AuthState :=
    match tryMethod e m.user c m with
    | none => (.denied, s, a)
    | some .fail => (.denied, s, a)
    | some .replied => (if m.method = .publickey then .pkOk else .denied, s, a)
    | some .ok =>
      let a := { a with successMethods := m.method :: a.successMethods, successCount := a.successCount + 1 }
      if a.successCount < a.methodCount then (.partialSuccess, s, a) else (.success, { s with authenticated := true }, a)
  match s.username with
  | none => cont { s with username := some m.user } (initState c a)
  | some u => if m.user ≠ u then (.denied, { s with status := .invalid }, a) else cont s a

/-- `nc_server_ssh_auth` (src/session_server_ssh.c:1444-1573); with `local_users_supported` the client is the first one of that name in the chain of endpoints, the
missing endpoint of a dangling reference is an error which is answered like an unknown user. -/
def auth (e : Env) (localUsers : Bool) (o : Opts) (m : AuthMsg) (s : Sess) (a : AuthState) : Reply × Sess × AuthState :=
  if localUsers then
    match o.chain.flatten.find? (fun c => c.name = m.user) with
    | none => (.denied, s, a)
    | some c => authKnown e (some c) m s a
  else authKnown e none m s a

/-! ## Messages -/

/-- SSH messages (src/session_server_ssh.c:1583-1692): authentication, opening a channel (of session or another type), subsystem request on a channel, anything else. -/
inductive Msg where
  | auth (m : AuthMsg)
  | channelOpen (session : Bool)
  | subsystem (chan : Nat) (name : Text)
  | other
  deriving DecidableEq, Repr

/-- One SSH connection (src/session_server_ssh.c:1409-1415): the sessions, from the one which handles messages along `ti.libssh.next`, the number of channels accepted (they are
numbered in this order) and the authentication state. -/
structure Conn where
  main : Sess
  others : List Sess
  channels : Nat
  authState : AuthState
  deriving DecidableEq, Repr

/-- `nc_server_ssh_channel_open` (src/session_server_ssh.c:1343-1372); `accepts` tells whether libssh creates the channel. -/
def channelOpen (accepts : Bool) (c : Conn) : Reply × Conn :=
  match c.main.channel with
  | none =>
    if c.main.status ≠ .starting then (.denied, c)
    else if ¬ accepts then (.denied, c)
    else (.success, { c with main := { c.main with channel := some c.channels }, channels := c.channels + 1 })
  | some _ => if ¬ accepts then (.denied, c) else (.success, { c with channels := c.channels + 1 })

/-- `nc_server_ssh_channel_subsystem` (src/session_server_ssh.c:1382-1430); the new session comes right behind the main one; a failing `nc_new_session` (out of memory) is left out. -/
def channelSubsystem (chan : Nat) (name : Text) (c : Conn) : Reply × Conn :=
  if name ≠ "netconf".toList then (.denied, c)
  else if c.main.channel = some chan then
    if c.others ≠ [] ∨ c.main.status ≠ .starting then (.denied, c)
    else if c.main.subsys then (.denied, c)
    else (.success, { c with main := { c.main with subsys := true } })
  else
    (.success, { c with others := { status := .starting, channel := some chan, subsys := true, authenticated := true, username := c.main.username } :: c.others })

/-- `nc_session_ssh_msg` (src/session_server_ssh.c:1575-1764); `authPhase` tells whether the authentication state is given (it is NULL after the authentication,
src/session_server_ssh.c:1784, src/session_server.c:1818). A return value of 1 is answered by a denial (src/session_server_ssh.c:1784-1786, 1881-1883). -/
def sshMsg (e : Env) (localUsers : Bool) (o : Opts) (authPhase accepts : Bool) (m : Msg) (c : Conn) : Reply × Conn :=
  if c.main.status = .closing ∨ c.main.status = .invalid then (.denied, c)
  else
    match m with
    | .auth m =>
      if c.main.authenticated then (.denied, c)
      else if ¬ authPhase then (.denied, c)
      else
        let r := auth e localUsers o m c.main c.authState
        (r.1, { c with main := r.2.1, authState := r.2.2 })
    | .channelOpen true => if c.main.authenticated then channelOpen accepts c else (.denied, c)
    | .subsystem chan name => if c.main.authenticated then channelSubsystem chan name c else (.denied, c)
    | _ => (.denied, c)

/-- A fresh connection (src/session_server.c:2531-2538, src/session_server_ssh.c:1862-1867). -/
def fresh : Conn :=
  { main := { status := .starting, channel := none, subsys := false, authenticated := false, username := none }, others := [], channels := 0,
    authState := { methods := [], methodCount := 0, successMethods := [], successCount := 0 } }

/-- What happens on the connection: a message (with the decision of libssh on a new channel), or another part of the library sets the status of the session
(src/session_server.c:2599, src/session.c:965). -/
inductive Ev where
  | msg (m : Msg) (accepts : Bool)
  | status (s : Status)
  deriving DecidableEq, Repr

/-- The message loops (src/session_server_ssh.c:1873-1896, 1776-1800, src/session_server.c:1815-1830): replies in order (a status change has none) and the connection
in the end. The authentication phase lasts until the session is authenticated. -/
def run (e : Env) (localUsers : Bool) (o : Opts) : List Ev → Conn → List (Option Reply) × Conn
  | [], c => ([], c)
  | .msg m accepts :: evs, c =>
    let r := sshMsg e localUsers o (!c.main.authenticated) accepts m c
    let t := run e localUsers o evs r.2
    (some r.1 :: t.1, t.2)
  | .status s :: evs, c =>
    let t := run e localUsers o evs { c with main := { c.main with status := s } }
    (none :: t.1, t.2)

end Verif.SshAuth
