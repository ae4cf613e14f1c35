/-!
# Keyboard-interactive authentication by PAM (src/session_server_ssh.c:839-905, 1308-1334)

What PAM answers is a parameter: each function is called once at most, so that an answer for each of them will do.

Simplified: the conversation, which PAM has with the client meanwhile (src/session_server_ssh.c:711-828), is in `Model/AuthKeys`; the library is built with PAM.
-/

namespace Verif.PamAuth

/-- Functions of PAM (src/session_server_ssh.c:862, 869, 881, 890, 901). -/
inductive Call where
  | start
  | authenticate
  | acctMgmt
  | chauthtok
  | finish
  deriving DecidableEq, Repr

/-- `PAM_NEW_AUTHTOK_REQD` of Linux-PAM; `PAM_SUCCESS` is 0 (src/session_server_ssh.c:882). -/
def newTokenRequired : Int := 12

/-- `nc_server_ssh_auth_kbdint_pam` (src/session_server_ssh.c:839-905): `conf` is whether the name of a configuration is set, `handle` whether a `pam_start` that fails sets the
handle nevertheless. The value and the calls in their order. -/
def pam (conf handle : Bool) (ask : Call → Int) : Int × List Call :=
  if conf = false then (1, [])
  else if ask .start ≠ 0 then (ask .start, .start :: if handle then [.finish] else [])
  else if ask .authenticate ≠ 0 then (ask .authenticate, [.start, .authenticate, .finish])
  else if ask .acctMgmt ≠ 0 ∧ ask .acctMgmt ≠ newTokenRequired then (ask .acctMgmt, [.start, .authenticate, .acctMgmt, .finish])
  else if ask .acctMgmt = newTokenRequired then (ask .chauthtok, [.start, .authenticate, .acctMgmt, .chauthtok, .finish])
  else (ask .acctMgmt, [.start, .authenticate, .acctMgmt, .finish])

/-- `nc_server_ssh_auth_kbdint` (src/session_server_ssh.c:1308-1334): `user` is whether the method is enabled for the user, `none` if the server has no local users; `clb` is what the
callback of the application returns, if one is set. The value and the calls of PAM. -/
def kbdint (user : Option Bool) (clb : Option Int) (conf handle : Bool) (ask : Call → Int) : Int × List Call :=
  if user = some false then (1, [])
  else
    let r := match clb with
      | some r => (r, [])
      | none => pam conf handle ask
    (if r.1 ≠ 0 then 1 else 0, r.2)

end Verif.PamAuth
