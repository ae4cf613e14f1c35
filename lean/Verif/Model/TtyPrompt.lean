/-!
# Asking the user in a terminal (src/session_client_ssh.c:62-200, 613-791)

The default callbacks of the client for passwords, keyboard-interactive answers and passphrases of keys, compiled with termios. Terminals are devices with
settings; `/dev/tty` and the terminal of the standard input and output may be one device or several. Simplification: `tcsetattr` changes all or nothing.
-/

namespace Verif.TtyPrompt

/-- Settings of a terminal (`struct termios`, src/session_client_ssh.c:78): the flag ECHO and all others. -/
structure Term where
  echo : Bool
  rest : Nat
  deriving DecidableEq, Repr

/-- How a terminal may be found (src/session_client_ssh.c:122, 131, 162, 166). -/
inductive Path where
  | tty
  | stdin
  | stdout
  deriving DecidableEq, Repr

/-- What the calls do (src/session_client_ssh.c:81-103, 122-145, 162-176, 193, 634-649): the device a path leads to, can it be opened for reading and writing, can its
settings be read and changed, is the name of the terminal of the standard input and output known, do the writes succeed, is memory of the size there. -/
structure Env where
  dev : Path → Nat
  canRead : Path → Bool
  canWrite : Path → Bool
  getAttr : Path → Bool
  setAttr : Path → Bool
  nameIn : Bool
  nameOut : Bool
  writes : Nat → Bool
  alloc : Nat → Bool

/-- Settings of all devices and the files open (src/session_client_ssh.c:75-104). -/
structure St where
  terms : Nat → Term
  files : List Path

/-- `tcsetattr` (src/session_client_ssh.c:100, 193). -/
def setTerm (d : Nat) (t : Term) (terms : Nat → Term) : Nat → Term := fun x => if x = d then t else terms x

/-- `nc_open_tty_noecho` (src/session_client_ssh.c:75-107): the file and the settings before. -/
def openNoEcho (e : Env) (p : Path) (s : St) : Option Term × St :=
  if e.canRead p = false then (none, s)
  else
    let s1 := { s with files := p :: s.files }
    if e.getAttr p = false then (none, { s1 with files := s1.files.erase p })
    else
      let old := s1.terms (e.dev p)
      if e.setAttr p = false then (none, { s1 with files := s1.files.erase p })
      else (some old, { s1 with terms := setTerm (e.dev p) { old with echo := false } s1.terms })

/-- Opening for reading without changes (src/session_client_ssh.c:126, 139). -/
def openPlain (e : Env) (p : Path) (s : St) : Option Term × St :=
  if e.canRead p = false then (none, s) else (some (s.terms (e.dev p)), { s with files := p :: s.files })

/-- Opening for reading with or without echo (src/session_client_ssh.c:121-129, 137-144). -/
def openOne (e : Env) (echo : Bool) (p : Path) (s : St) : Option Term × St := if echo = true then openPlain e p s else openNoEcho e p s

/-- `nc_open_in` (src/session_client_ssh.c:117-149): the terminal, else the one of the standard input. -/
def openIn (e : Env) (echo : Bool) (s : St) : Option (Path × Term) × St :=
  match openOne e echo .tty s with
  | (some old, s1) => (some (.tty, old), s1)
  | (none, s1) =>
    if e.nameIn = false then (none, s1)
    else
      match openOne e echo .stdin s1 with
      | (some old, s2) => (some (.stdin, old), s2)
      | (none, s2) => (none, s2)

/-- `nc_open_out` (src/session_client_ssh.c:157-178). -/
def openOut (e : Env) (s : St) : Option Path × St :=
  if e.canWrite .tty = true then (some .tty, { s with files := .tty :: s.files })
  else if e.nameOut = false then (none, s)
  else if e.canWrite .stdout = true then (some .stdout, { s with files := .stdout :: s.files })
  else (none, s)

/-- `nc_close_inout` of the input (src/session_client_ssh.c:189-200): the settings are set back if echo was turned off. `restore` is the result of `tcsetattr`. -/
def closeIn (e : Env) (restore echo : Bool) (f : Option (Path × Term)) (s : St) : St :=
  match f with
  | none => s
  | some (p, old) =>
    { terms := if (!echo && restore) = true then setTerm (e.dev p) old s.terms else s.terms, files := s.files.erase p }

/-- `nc_close_inout` of the output (src/session_client_ssh.c:189-200). -/
def closeOut (f : Option Path) (s : St) : St :=
  match f with
  | none => s
  | some p => { s with files := s.files.erase p }

/-- Results of reading a line (src/session_client_ssh.c:643-651): the text, no memory, or undefined behaviour. -/
inductive Line where
  | text (l : List Nat)
  | nomem
  | undefined
  deriving DecidableEq, Repr

/-- Doubling the size of the buffer (src/session_client_ssh.c:646, 711, 773): an `int` must not overflow, an `uint32_t` wraps around. -/
def grow (int : Bool) (cap : Nat) : Option Nat := if int = true then (if 2 * cap < 2 ^ 31 then some (2 * cap) else none) else some (2 * cap % 2 ^ 32)

/-- Writing a byte and going on (src/session_client_ssh.c:650, 652): `len` must be inside of the buffer. -/
def put (len cap : Nat) (r : Line) : Line := if len < cap then r else .undefined

/-- The loop reading a line and the terminating byte (src/session_client_ssh.c:643-652, 708-718, 770-779): `cap` is the size of the buffer, `acc` what is in it. -/
def readLine (int : Bool) (alloc : Nat → Bool) (cap : Nat) (acc : List Nat) : List Nat → Line
  | [] => put acc.length cap (.text acc)
  | c :: cs =>
    if c = 10 then put acc.length cap (.text acc)
    else if (if cap = 0 then 2 ^ 32 - 1 else cap - 1) ≤ acc.length then
      match grow int cap with
      | none => .undefined
      | some cap' =>
        -- nc_realloc(buf, 0) frees the memory and then frees it again (src/io.c:1084-1095)
        if cap' = 0 then .undefined
        else if alloc cap' = true then put acc.length cap' (readLine int alloc cap' (acc ++ [c]) cs)
        else .nomem
    else put acc.length cap (readLine int alloc cap (acc ++ [c]) cs)

/-- The three callbacks (src/session_client_ssh.c:614, 671, 739): which one, with its echo and how many texts are written before reading. -/
inductive Ask where
  | password
  | interactive (echo name instruction : Bool)
  | passphrase
  deriving DecidableEq, Repr

/-- Is typed text shown (src/session_client_ssh.c:627, 681, 753). -/
def Ask.echo : Ask → Bool
  | .interactive b _ _ => b
  | _ => false

/-- Number of writes before reading (src/session_client_ssh.c:634, 688-703, 760). -/
def Ask.prompts : Ask → Nat
  | .interactive _ n i => (if n = true then 1 else 0) + (if i = true then 1 else 0) + 1
  | _ => 1

/-- First size of the buffer (src/session_client_ssh.c:619, 674, 743). -/
def Ask.cap : Ask → Nat
  | .interactive _ _ _ => 64
  | _ => 1024

/-- Is the size an `int` (src/session_client_ssh.c:619, 674, 743). -/
def Ask.int : Ask → Bool
  | .interactive _ _ _ => false
  | _ => true

/-- What a callback did (src/session_client_ssh.c:614-668): returned text or NULL, the state after, and the settings of the terminal read from while reading; or
undefined behaviour. -/
inductive Res where
  | done (text : Option (List Nat)) (s : St) (seen : Option Term)
  | undefined

/-- End of the callbacks (src/session_client_ssh.c:655-663, 721-729, 782-790). -/
def finish (e : Env) (restore echo : Bool) (i : Option (Path × Term)) (o : Option Path) (text : Option (List Nat)) (seen : Option Term) (s : St) : Res :=
  .done text (closeOut o (closeIn e restore echo i s)) seen

/-- `sshauth_password`, `sshauth_interactive` and `sshauth_privkey_passphrase` (src/session_client_ssh.c:613-668, 670-736, 738-791); `input` is what is typed until the end
of the input, `restore` the result of setting back the settings. -/
def ask (e : Env) (restore : Bool) (a : Ask) (input : List Nat) (s : St) : Res :=
  if e.alloc a.cap = false then .done none s none
  else
    match openIn e a.echo s with
    | (none, s1) => finish e restore a.echo none none none none s1
    | (some i, s1) =>
      match openOut e s1 with
      | (none, s2) => finish e restore a.echo (some i) none none none s2
      | (some o, s2) =>
        if (List.range a.prompts).all e.writes = false then finish e restore a.echo (some i) (some o) none none s2
        else
          match readLine a.int e.alloc a.cap [] input with
          | .undefined => .undefined
          | .nomem => finish e restore a.echo (some i) (some o) none (some (s2.terms (e.dev i.1))) s2
          | .text l => finish e restore a.echo (some i) (some o) (some l) (some (s2.terms (e.dev i.1))) s2

end Verif.TtyPrompt
