import Verif.Model.ClientSsh
import Verif.Model.SshAuth

/-!
# A client and a server of this library authenticating over SSH

The client of `Verif.ClientSsh` (src/session_client_ssh.c) with the server of `Verif.SshAuth` (src/session_server_ssh.c) on the other side of the
connection. Simplified: libssh carries requests and replies without loss (no timeouts, no transport errors) and checks the signatures; the prompts of
the keyboard-interactive method are answered in one round; the private key file holds one key.
-/

namespace Verif.SshTalk
open Verif.ClientSsh (Server Res Methods Key KeyFiles Host)
open Verif.SshAuth (Env AuthMsg Conn Reply sshMsg fresh)

/-- Who the client is and what libssh reads from its files (src/session_client_ssh.c:1402, 1438-1446, 1472, 1503): the user name, the answers to prompts, the key in
the public key file and the one in the private key file of a pair. -/
structure Me where
  user : List Char
  answers : List (List Char)
  pubKey : Key → Nat
  privKey : Key → Nat

/-- The request of the client with method `none` (src/session_client_ssh.c:1329). -/
def Me.none (me : Me) : AuthMsg := { user := me.user, method := .none, password := [], key := 0, sig := .absent, answers := [] }

/-- The request with a password (src/session_client_ssh.c:1402). -/
def Me.password (me : Me) (p : List Char) : AuthMsg := { user := me.user, method := .password, password := p, key := 0, sig := .absent, answers := [] }

/-- The keyboard-interactive requests with the answers in the end (src/session_client_ssh.c:1420-1453). -/
def Me.kbd (me : Me) : AuthMsg := { user := me.user, method := .interactive, password := [], key := 0, sig := .absent, answers := me.answers }

/-- Asking whether a public key would be accepted (src/session_client_ssh.c:1484). -/
def Me.tryKey (me : Me) (k : Key) : AuthMsg := { user := me.user, method := .publickey, password := [], key := me.pubKey k, sig := .absent, answers := [] }

/-- The request signed by a private key (src/session_client_ssh.c:1520). -/
def Me.sign (me : Me) (k : Key) : AuthMsg := { user := me.user, method := .publickey, password := [], key := me.privKey k, sig := .valid, answers := [] }

/-- How the client is told of a reply (src/session_server_ssh.c:1283, 1557, 1560, 1569, 1786, src/session_client_ssh.c:1330-1343, 1485-1496, 1535-1554). -/
def res : Reply → Res
  | .denied => .denied
  | .pkOk => .success
  | .partialSuccess => .part
  | .success => .success

/-- A request handled by the server (src/session_server_ssh.c:1575-1692, 1776-1800, 1873-1896): the result for the client and the connection afterwards. -/
def ask (e : Env) (lu : Bool) (o : SshAuth.Opts) (m : AuthMsg) (c : Conn) : Res × Conn :=
  let r := sshMsg e lu o (!c.main.authenticated) false (.auth m) c
  (res r.1, r.2)

/-- The methods named in a denial (src/session_server_ssh.c:1482, 1520, 1556): public key for an unknown user, the methods of the user, without those already
passed after a partial success. -/
def offers (c : Conn) : Methods :=
  match c.main.username with
  | none => ⟨false, false, true⟩
  | some _ =>
    let left := c.authState.methods.filter (fun m => !c.authState.successMethods.contains m)
    ⟨left.contains .interactive, left.contains .password, left.contains .publickey⟩

/-- The server as the client sees it (src/session_client_ssh.c:1329, 1346, 1402, 1420-1453, 1484, 1520). -/
def server (e : Env) (lu : Bool) (o : SshAuth.Opts) (me : Me) : Server Conn where
  connect := .success
  none := ask e lu o me.none
  offers := offers
  password := fun p => ask e lu o (me.password p)
  kbd := fun c => ([], ask e lu o me.kbd c)
  tryKey := fun k => ask e lu o (me.tryKey k)
  sign := fun k => ask e lu o (me.sign k)

/-- The client connects and authenticates (src/session_client_ssh.c:1291-1560, src/session_server_ssh.c:1862-1896): its result and what it did. -/
def login (e : Env) (lu : Bool) (so : SshAuth.Opts) (me : Me) (co : ClientSsh.Opts) (kf : KeyFiles) (h : Host) : ClientSsh.Out × List ClientSsh.Ev :=
  ClientSsh.connect (server e lu so me) co kf h fresh

end Verif.SshTalk
