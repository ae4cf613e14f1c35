/-!
# Sockets and memory of connections (src/session_client.c, src/session_client_ssh.c, src/session_client_tls.c, src/session_server.c,
src/session_server_tls.c, src/session_server_ssh.c, src/session.c)

Each object that is allocated and each descriptor that is opened is a token; a function opens each of its tokens at most once. Pointers are tokens or
NULL. Freeing what is not allocated is undefined behaviour. Which calls succeed is a parameter; waiting is left out.

A descriptor that is given to libssh is known by it (`ssh_get_fd`) from `ssh_connect` or `ssh_bind_accept_fd` on, and it is not closed by libssh: this
is what src/session.c:790-796, 840-843 relies on. OpenSSL does not close the descriptor of `SSL_set_fd` either, and the store of certificates belongs to the
`SSL_CTX` after `SSL_CTX_set_cert_store`.
-/

namespace Verif.ConnRes

/-- What can be allocated or open (src/session_client_ssh.c:1757-1770, src/session_client_tls.c:259-266, src/session_server_tls.c:793-804); `other` is
what belongs to the rest of the program. -/
inductive Tok where
  | session
  | sock
  | buf
  | ipHost
  | host
  | user
  | path
  | ctx
  | ssh
  | sbind
  | cfg
  | store
  | cert
  | pkey
  | crl
  | tls
  | rng
  | sockPtr
  | other (n : Nat)
  deriving DecidableEq, Repr

/-- A pointer or descriptor; `none` is NULL or -1 (src/session_client_tls.c:266). -/
abbrev Ptr := Option Tok

/-- `free`, `close` and similar calls one after another (src/session_client_tls.c:348-358); `none` is undefined behaviour. -/
def freeAll : List Ptr → List Tok → Option (List Tok)
  | [], live => some live
  | none :: ps, live => freeAll ps live
  | some t :: ps, live => if t ∈ live then freeAll ps (live.erase t) else none

/-- The TLS libraries (src/session_openssl.c, src/session_mbedtls.c, chosen in CMakeLists.txt:236-243). -/
inductive Lib where
  | openssl
  | mbedtls
  deriving DecidableEq, Repr

/-- `struct nc_tls_ctx` (src/session_wrapper.h:32-59). -/
structure TlsCtx where
  cert : Ptr := none
  pkey : Ptr := none
  store : Ptr := none
  crl : Ptr := none
  rng : Ptr := none
  sockPtr : Ptr := none
  deriving DecidableEq, Repr

/-- `nc_tls_ctx_destroy_wrap` (src/session_openssl.c:631-635, src/session_mbedtls.c:948-957). -/
def TlsCtx.frees (lib : Lib) (c : TlsCtx) : List Ptr :=
  match lib with
  | .openssl => []
  | .mbedtls => [c.rng, c.cert, c.pkey, c.store, c.crl, c.sockPtr]

/-- Transports (src/session.h:87-97). -/
inductive Ti where
  | none
  | fd
  | unix
  | ssh
  | tls
  deriving DecidableEq, Repr

/-- `struct nc_session` (src/session_p.h:686-781): `fd` is the descriptor known to the transport. -/
structure Sess where
  ti : Ti := .none
  fd : Ptr := none
  ssh : Ptr := none
  tls : Ptr := none
  cfg : Ptr := none
  tctx : TlsCtx := {}
  host : Ptr := none
  user : Ptr := none
  path : Ptr := none
  ctx : Ptr := none
  shared : Bool := false
  deriving DecidableEq, Repr

/-- `nc_tls_get_fd_wrap` (src/session_openssl.c:1032-1036, src/session_mbedtls.c:1269-1273). -/
def Sess.tlsFd (lib : Lib) (s : Sess) : Ptr :=
  match lib with
  | .openssl => if s.tls.isSome then s.fd else none
  | .mbedtls => if s.tctx.sockPtr.isSome then s.fd else none

/-- `nc_session_free_transport` for the only session of a connection (src/session.c:721-844). -/
def Sess.transport (lib : Lib) (s : Sess) : List Ptr :=
  match s.ti with
  | .none | .fd => []
  | .unix => [s.fd]
  | .ssh => [s.ssh, s.fd]
  | .tls => s.tctx.frees lib ++ [s.tls, s.cfg, s.tlsFd lib]

/-- What `nc_session_free` frees, in order (src/session.c:987-1021), with the locks and the capabilities counted to the session. -/
def Sess.frees (lib : Lib) (s : Sess) : List Ptr :=
  s.transport lib ++ [s.user, s.host, s.path] ++ (if s.shared then [] else [s.ctx]) ++ [some .session]

/-- Result of a function that gives a session or NULL: with what is allocated then; `none` is undefined behaviour (src/session_client.c:1421). -/
abbrev Out := Option (Option Sess × List Tok)

/-- A label `fail`: free and return NULL (src/session_client.c:1461-1463). -/
def fail (ps : List Ptr) (live : List Tok) : Out := (freeAll ps live).map (fun l => (none, l))

/-- The context given by the user, or whether one can be created (src/session_client.c:252-281). -/
inductive CtxArg where
  | given
  | created
  | failed
  deriving DecidableEq, Repr

/-- `nc_client_session_new_ctx` (src/session_client.c:252-281); `none` for EXIT_FAILURE. -/
def newCtx (c : CtxArg) (s : Sess) (live : List Tok) : Option (Sess × List Tok) :=
  match c with
  | .given => some ({ s with shared := true }, live)
  | .created => some ({ s with ctx := some .ctx }, .ctx :: live)
  | .failed => none

/-- What happens from the context on (src/session_client.c:1444-1457): the context, the hello messages, filling the context. -/
structure Tail where
  ctx : CtxArg
  hello : Bool
  fill : Bool
  deriving DecidableEq, Repr

/-- Hello messages and filling the context, with what is freed on failure and the session on success (src/session_client.c:1449-1459). -/
def helloFill (e : Tail) (ps : List Ptr) (live : List Tok) (ok : Out) : Out :=
  if !e.hello then fail ps live
  else if !e.fill then fail ps live
  else ok

/-- `nc_connect_inout` (src/session_client.c:1420-1464). -/
def connectInout (lib : Lib) (newSess : Bool) (e : Tail) (live : List Tok) : Out :=
  if !newSess then some (none, live)
  else
    let s : Sess := { ti := .fd }
    let l := .session :: live
    match newCtx e.ctx s l with
    | none => fail (s.frees lib) l
    | some (s', l') => helloFill e (s'.frees lib) l' (some (some s', l'))

/-- Calls of `nc_connect_unix` (src/session_client.c:1466-1544). -/
structure UnixEnv where
  socket : Bool
  connect : Bool
  fcntl : Bool
  newSess : Bool
  path : Bool
  pw : Bool
  dup : Bool
  tail : Tail
  deriving DecidableEq, Repr

/-- `nc_connect_unix` from the context on (src/session_client.c:1509-1544). -/
def unixTail (lib : Lib) (e : UnixEnv) (s : Sess) (l : List Tok) : Out :=
  let s1 := { s with path := if e.path then some .path else none }
  let l1 := .buf :: (if e.path then .path :: l else l)
  if !e.pw then fail (s1.frees lib) l1
  else
    match freeAll [some .buf] (if e.dup then .user :: l1 else l1) with
    | none => none
    | some l2 =>
      if !e.dup then fail (s1.frees lib) l2
      else
        let s2 := { s1 with user := some .user }
        helloFill e.tail (s2.frees lib) l2 (some (some s2, l2))

/-- `nc_connect_unix` (src/session_client.c:1466-1544). -/
def connectUnix (lib : Lib) (e : UnixEnv) (live : List Tok) : Out :=
  if !e.socket then some (none, live)
  else
    let l := .sock :: live
    if !e.connect then fail [some .sock] l
    else if !e.fcntl then fail [some .sock] l
    else if !e.newSess then fail [some .sock] l
    else
      let s : Sess := { ti := .unix, fd := some .sock }
      let l1 := .session :: l
      match newCtx e.tail.ctx s l1 with
      | none => fail (s.frees lib) l1
      | some (s', l') => unixTail lib e s' l'

/-- Calls of `nc_connect_ssh` (src/session_client_ssh.c:1757-1864): `named` whether a user name is set, `auth` both `connect_ssh_session` and
`open_netconf_channel`. -/
structure SshEnv where
  named : Bool
  pw : Bool
  newSess : Bool
  sshNew : Bool
  hostOpt : Bool
  sock : Bool
  dupHost : Bool
  dupUser : Bool
  auth : Bool
  tail : Tail
  deriving DecidableEq, Repr

/-- `nc_connect_ssh` from the connected socket on (src/session_client_ssh.c:1826-1864). -/
def sshTail (lib : Lib) (e : SshEnv) (s : Sess) (l : List Tok) : Out :=
  let s1 := { s with fd := some .sock, host := if e.dupHost then some .host else none, user := if e.dupUser then some .user else none }
  let l1 := (if e.dupUser then [.user] else []) ++ (if e.dupHost then [.host] else []) ++ .ipHost :: .sock :: l
  if !e.auth then fail ([some .buf, some .ipHost] ++ s1.frees lib) l1
  else
    match newCtx e.tail.ctx s1 l1 with
    | none => fail ([some .buf, some .ipHost] ++ s1.frees lib) l1
    | some (s2, l2) =>
      helloFill e.tail ([some .buf, some .ipHost] ++ s2.frees lib) l2
        ((freeAll [s2.host, some .buf] l2).map (fun l3 => (some { s2 with host := some .ipHost }, l3)))

/-- `nc_connect_ssh` (src/session_client_ssh.c:1757-1864). -/
def connectSsh (lib : Lib) (e : SshEnv) (live : List Tok) : Out :=
  let l := .buf :: live
  if !e.named && !e.pw then fail [some .buf] l
  else if !e.newSess then fail [some .buf] l
  else
    let l1 := .session :: l
    if !e.sshNew then fail (some .buf :: ({ ti := .ssh } : Sess).frees lib) l1
    else
      let s : Sess := { ti := .ssh, ssh := some .ssh }
      let l2 := .ssh :: l1
      if !e.hostOpt then fail (some .buf :: s.frees lib) l2
      else if !e.sock then fail (some .buf :: s.frees lib) l2
      else sshTail lib e s l2

/-- Calls of `_nc_connect_libssh` (src/session_client_ssh.c:1632-1755): `hasHost`, `hasUser` whether these options are set, `connected` whether the SSH
session is connected already, with the descriptor known to libssh. -/
structure LibsshEnv where
  newSess : Bool
  hasHost : Bool
  dupHost : Bool
  hostOpt : Bool
  sock : Bool
  hasUser : Bool
  connected : Bool
  named : Bool
  pw : Bool
  dupUser : Bool
  auth : Bool
  channel : Bool
  tail : Tail
  deriving DecidableEq, Repr

/-- `_nc_connect_libssh` from the channel on (src/session_client_ssh.c:1719-1755). -/
def libsshTail (lib : Lib) (e : LibsshEnv) (host user : Ptr) (s : Sess) (l : List Tok) : Out :=
  if !e.channel then fail (s.frees lib) l
  else
    match newCtx e.tail.ctx s l with
    | none => fail (s.frees lib) l
    | some (s', l') => helloFill e.tail (s'.frees lib) l' (some (some { s' with host := host, user := user }, l'))

/-- `_nc_connect_libssh` from the user name on (src/session_client_ssh.c:1686-1717); `fd` is the descriptor that libssh is told. -/
def libsshUser (lib : Lib) (e : LibsshEnv) (host fd : Ptr) (s : Sess) (l : List Tok) : Out :=
  let l1 := if e.hasUser then .user :: l else l
  if e.connected then libsshTail lib e host (if e.hasUser then some .user else none) s l1
  else if e.hasUser then
    let s1 := { s with host := host, user := some .user, fd := fd }
    if !e.auth then fail (s1.frees lib) l1 else libsshTail lib e host (some .user) s1 l1
  else if !e.named && !e.pw then fail (s.frees lib) (.buf :: l1)
  else if !e.dupUser then fail (s.frees lib) l1
  else
    let s1 := { s with host := host, user := some .user, fd := fd }
    if !e.auth then fail (s1.frees lib) (.user :: l1) else libsshTail lib e host (some .user) s1 (.user :: l1)

/-- `_nc_connect_libssh` (src/session_client_ssh.c:1632-1755) with an SSH session `ssh` and the descriptor `fd` set or used by it. -/
def connectLibssh (lib : Lib) (e : LibsshEnv) (fd : Ptr) (live : List Tok) : Out :=
  if !e.newSess then some (none, live)
  else
    let s : Sess := { ti := .ssh, ssh := some .ssh, fd := if e.connected then fd else none }
    let l := .session :: live
    if e.hasHost then libsshUser lib e (some .host) fd s (.host :: l)
    else if !e.dupHost then fail (s.frees lib) l
    else if !e.hostOpt then fail (some .host :: s.frees lib) (.host :: l)
    else if !e.sock then fail (some .host :: s.frees lib) (.host :: l)
    else
      match freeAll [some .host] (.ipHost :: .sock :: .host :: l) with
      | none => none
      | some l1 => libsshUser lib e (some .ipHost) (some .sock) s l1

/-- Calls of `nc_accept_callhome_ssh_sock` before (src/session_client_ssh.c:1935-1979). -/
structure ChSshEnv where
  sshNew : Bool
  hostOpt : Bool
  named : Bool
  pw : Bool
  rest : LibsshEnv
  deriving DecidableEq, Repr

/-- `nc_accept_callhome_ssh_sock` (src/session_client_ssh.c:1935-1996) with the open socket; host, user and descriptor are set for what follows. -/
def acceptChSsh (lib : Lib) (e : ChSshEnv) (live : List Tok) : Out :=
  if !e.sshNew then fail [some .sock] live
  else if !e.hostOpt then fail [some .ssh] (.ssh :: live)
  else if !e.named && !e.pw then fail [some .ssh] (.buf :: .ssh :: live)
  else connectLibssh lib { e.rest with hasHost := true, hasUser := true, connected := false } (some .sock) (.ssh :: live)

/-! ## TLS -/

/-- Calls of `nc_client_tls_session_new` and `nc_accept_tls_session` (src/session_client_tls.c:259-359, src/session_server_tls.c:793-943): `check` is
all that is done between loading the certificates and fetching revocation lists, `crl` whether fetching succeeds and gives a store, `rng` and
`sockPtr` the steps of `nc_tls_init_ctx_wrap` (of Mbed TLS), `peer` setting the host name, `up` the handshake with its check. -/
structure TlsEnv where
  cfg : Bool
  store : Bool
  load : Bool
  check : Bool
  crl : Option Bool
  versions : Bool
  rng : Bool
  sockPtr : Bool
  setup : Bool
  sess : Bool
  peer : Bool
  up : Bool
  deriving DecidableEq, Repr

/-- The pointer to the revocation lists (src/session_client_tls.c:291). -/
def TlsEnv.crlPtr (e : TlsEnv) : Ptr := if e.crl = some true then some .crl else none

/-- What is allocated once certificates and revocation lists are loaded (src/session_client_tls.c:269-293). -/
def TlsEnv.loaded (e : TlsEnv) (live : List Tok) : List Tok :=
  if e.crl = some true then .crl :: .pkey :: .cert :: .store :: .cfg :: live else .pkey :: .cert :: .store :: .cfg :: live

/-- Result of `nc_tls_init_ctx_wrap`: success, the context and what is allocated (src/session_openssl.c:717-725, src/session_mbedtls.c:1054-1071). -/
def initCtx (lib : Lib) (e : TlsEnv) (live : List Tok) : Bool × TlsCtx × List Tok :=
  match lib with
  | .openssl => (true, { cert := some .cert, pkey := some .pkey, store := some .store, crl := e.crlPtr }, live)
  | .mbedtls =>
    if !e.rng then (false, {}, live)
    else if !e.sockPtr then (false, { rng := some .rng }, .rng :: live)
    else (true, { cert := some .cert, pkey := some .pkey, store := some .store, crl := e.crlPtr, rng := some .rng, sockPtr := some .sockPtr },
      .sockPtr :: .rng :: live)

/-- `nc_tls_setup_config_from_ctx_wrap` (src/session_openssl.c:761-799, src/session_mbedtls.c:1073-1096) when it succeeds: with OpenSSL, the store belongs
to the configuration then, and the rest is freed. -/
def setupCtx (lib : Lib) (c : TlsCtx) (live : List Tok) : Option (TlsCtx × List Tok) :=
  match lib with
  | .openssl => (freeAll [c.cert, c.pkey, c.crl] (live.erase .store)).map (fun l => ({ store := c.store }, l))
  | .mbedtls => some (c, live)

/-- Result of `nc_client_tls_session_new`: whether there is a TLS session, the TLS context of the caller, and what is allocated
(src/session_client_tls.c:259-359). -/
abbrev TlsOut := Option (Bool × TlsCtx × List Tok)

/-- The label `fail` (src/session_client_tls.c:347-358). -/
def tlsFail (c : TlsCtx) (sock tls cert pkey store crl cfg : Ptr) (live : List Tok) : TlsOut :=
  (freeAll [sock, tls, cert, pkey, store, crl, cfg] live).map (fun l => (false, c, l))

/-- `nc_client_tls_session_new` from the TLS session on (src/session_client_tls.c:311-346). -/
def tlsNewTail (e : TlsEnv) (c : TlsCtx) (l : List Tok) : TlsOut :=
  if !e.sess then tlsFail c (some .sock) none none none none none (some .cfg) l
  else if !e.peer then tlsFail c none (some .tls) none none none none (some .cfg) (.tls :: l)
  else if !e.up then tlsFail c none (some .tls) none none none none (some .cfg) (.tls :: l)
  else some (true, c, .tls :: l)

/-- `nc_client_tls_session_new` (src/session_client_tls.c:259-359). -/
def tlsNew (lib : Lib) (e : TlsEnv) (live : List Tok) : TlsOut :=
  if !e.cfg then tlsFail {} (some .sock) none none none none none none live
  else if !e.store then tlsFail {} (some .sock) none none none none none (some .cfg) (.cfg :: live)
  else if !e.load then tlsFail {} (some .sock) none none none (some .store) none (some .cfg) (.store :: .cfg :: live)
  else if !e.check || e.crl.isNone then
    tlsFail {} (some .sock) none (some .cert) (some .pkey) (some .store) none (some .cfg) (.pkey :: .cert :: .store :: .cfg :: live)
  else
    match initCtx lib e (e.loaded live) with
    | (false, c, l) => tlsFail c (some .sock) none (some .cert) (some .pkey) (some .store) e.crlPtr (some .cfg) l
    | (true, c, l) =>
      if !e.setup then tlsFail c (some .sock) none none none none none (some .cfg) l
      else
        match setupCtx lib c l with
        | none => none
        | some (c', l') => tlsNewTail e c' l'

/-- Calls of `nc_connect_tls` (src/session_client_tls.c:361-436): `opts` whether certificate and authorities are set. -/
structure ConnTlsEnv where
  opts : Bool
  newSess : Bool
  sock : Bool
  tls : TlsEnv
  dupUser : Bool
  tail : Tail
  deriving DecidableEq, Repr

/-- `nc_connect_tls` from the TLS session on (src/session_client_tls.c:399-436); `ip` is the pointer `ip_host`. -/
def connTlsTail (lib : Lib) (dupUser : Bool) (e : Tail) (ip : Ptr) (c : TlsCtx) (l : List Tok) : Out :=
  let s : Sess := { ti := .tls, fd := some .sock, tls := some .tls, cfg := some .cfg, tctx := c }
  match newCtx e.ctx s l with
  | none => fail (ip :: s.frees lib) l
  | some (s', l') =>
    helloFill e (ip :: s'.frees lib) l'
      (some (some { s' with host := ip, user := if dupUser then some .user else none }, if dupUser then .user :: l' else l'))

/-- `nc_connect_tls` (src/session_client_tls.c:361-436). -/
def connectTls (lib : Lib) (e : ConnTlsEnv) (live : List Tok) : Out :=
  if !e.opts then some (none, live)
  else if !e.newSess then some (none, live)
  else if !e.sock then fail (({} : Sess).frees lib) (.session :: live)
  else
    match tlsNew lib e.tls (.ipHost :: .sock :: .session :: live) with
    | none => none
    | some (false, c, l) => fail (some .ipHost :: ({ ti := .tls } : Sess).frees lib ++ c.frees lib) l
    | some (true, c, l) => connTlsTail lib e.dupUser e.tail (some .ipHost) c l

/-- `nc_accept_callhome_tls_sock` with the open socket (src/session_client_tls.c:445-495). -/
def acceptChTls (lib : Lib) (e : ConnTlsEnv) (dupHost : Bool) (live : List Tok) : Out :=
  if !e.newSess then some (none, live)
  else
    match tlsNew lib e.tls (.session :: live) with
    | none => none
    | some (false, c, l) => fail (({ ti := .tls } : Sess).frees lib ++ c.frees lib) l
    | some (true, c, l) =>
      match connTlsTail lib e.dupUser e.tail none c l with
      | some (some s, l') => some (some { s with host := if dupHost then some .host else none }, if dupHost then .host :: l' else l')
      | r => r

/-! ## Accepting -/

/-- Result of `nc_accept_tls_session`, `nc_accept_ssh_session`, `nc_accept_unix_session`: success, the session and what is allocated
(src/session_server_tls.c:793, src/session_server_ssh.c:1911, src/session_server.c:2305). -/
abbrev AccOut := Option (Bool × Sess × List Tok)

/-- A label `fail` of these (src/session_server_tls.c:927-943). -/
def accFail (s : Sess) (ps : List Ptr) (live : List Tok) : AccOut := (freeAll ps live).map (fun l => (false, s, l))

/-- `nc_accept_tls_session` (src/session_server_tls.c:793-943). -/
def acceptTls (lib : Lib) (e : TlsEnv) (s : Sess) (live : List Tok) : AccOut :=
  if !e.cfg then accFail s [some .sock] live
  else if !e.store then accFail s [some .sock, some .cfg] (.cfg :: live)
  else if !e.load then accFail s [some .sock, some .cfg, some .store] (.store :: .cfg :: live)
  else if !e.check || e.crl.isNone then
    accFail s [some .sock, some .cfg, some .cert, some .pkey, some .store] (.pkey :: .cert :: .store :: .cfg :: live)
  else if !e.versions then accFail s [some .sock, some .cfg, some .cert, some .pkey, some .store, e.crlPtr] (e.loaded live)
  else
    match initCtx lib e (e.loaded live) with
    | (false, c, l) => accFail { s with tctx := c } [some .sock, some .cfg, some .cert, some .pkey, some .store, e.crlPtr] l
    | (true, c, l) =>
      if !e.setup then accFail { s with tctx := c } [some .sock, some .cfg] l
      else
        match setupCtx lib c l with
        | none => none
        | some (c', l') =>
          let s1 := { s with tctx := c', cfg := some .cfg, ti := .tls, fd := some .sock }
          if !e.sess then accFail s1 [some .sock] l'
          else some (e.up, { s1 with tls := some .tls }, .tls :: l')

/-- Calls of `nc_accept_ssh_session` (src/session_server_ssh.c:1911-2013): `conf` configuring host keys and algorithms, `up` key exchange, authentication
and channel. -/
structure AccSshEnv where
  sshNew : Bool
  bindNew : Bool
  conf : Bool
  acceptFd : Bool
  up : Bool
  deriving DecidableEq, Repr

/-- `nc_accept_ssh_session` (src/session_server_ssh.c:1911-2013). -/
def acceptSsh (e : AccSshEnv) (s : Sess) (live : List Tok) : AccOut :=
  let s1 := { s with ti := .ssh }
  if !e.sshNew then accFail s1 [some .sock] live
  else
    let s2 := { s1 with ssh := some .ssh }
    if !e.bindNew then accFail s2 [some .sock] (.ssh :: live)
    else if !e.conf then accFail s2 [some .sock, some .sbind] (.sbind :: .ssh :: live)
    else if !e.acceptFd then accFail s2 [some .sock, some .sbind] (.sbind :: .ssh :: live)
    else (freeAll [some .sbind] (.sbind :: .ssh :: live)).map (fun l => (e.up, { s2 with fd := some .sock }, l))

/-- `nc_accept_unix_session` (src/session_server.c:2305-2347): `uid`, `pw`, `dup` are its steps. -/
def acceptUnix (uid pw dup : Bool) (s : Sess) (live : List Tok) : AccOut :=
  if !uid then accFail s [some .sock] live
  else if !pw then accFail s [some .sock] (.buf :: live)
  else if !dup then accFail s [some .buf, some .sock] (.buf :: live)
  else (freeAll [some .buf] (.user :: .buf :: live)).map (fun l => (true, { s with user := some .user, ti := .unix, fd := some .sock }, l))

/-- The transport of the endpoint and what happens on it (src/session_server.c:2540-2577). -/
inductive Trans where
  | ssh (e : AccSshEnv)
  | tls (e : TlsEnv)
  | unix (uid pw dup : Bool)
  | other
  deriving DecidableEq, Repr

/-- The transport of a new session (src/session_server.c:2540-2577). -/
def acceptTrans (lib : Lib) (t : Trans) (s : Sess) (live : List Tok) : AccOut :=
  match t with
  | .ssh e => acceptSsh e s live
  | .tls e => acceptTls lib e s live
  | .unix u p d => acceptUnix u p d s live
  | .other => accFail s [some .sock] live

/-- `nc_accept` once there is a socket (src/session_server.c:2525-2614): keepalives, session, transport, hello. For an unknown transport the socket is
closed before the session is freed here, as in C. -/
def accept (lib : Lib) (ka newSess hello : Bool) (t : Trans) (live : List Tok) : Out :=
  let l := .host :: .sock :: live
  if !ka then fail [some .host, some .sock] l
  else if !newSess then fail [some .host, some .sock] l
  else
    match acceptTrans lib t { shared := true, host := some .host } (.session :: l) with
    | none => none
    | some (false, s, l') => fail (s.frees lib) l'
    | some (true, s, l') => if !hello then fail (s.frees lib) l' else some (some s, l')

end Verif.ConnRes
