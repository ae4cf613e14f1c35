/-!
# The SSH client: host keys, authentication, key pairs (src/session_client_ssh.c:404-612, 998-1223, 1283-1560; src/session_client.c:69-97)

Calls of libssh are the functions of a server with its own state.  The loops repeating a call while it returns `SSH_AUTH_AGAIN` are one call; `again` as its result
means that the timeout elapsed.  Not modelled: DNSSEC (`ENABLE_DNSSEC` not defined), failing allocations, the texts of messages.
-/

namespace Verif.ClientSsh

/-- C strings and file contents as characters. (src/session_client_ssh.c:459) -/
abbrev Text := List Char

/-! ## Host keys -/

/-- Modes of checking host keys (src/session.h:40-46). -/
inductive Mode | ask | strict | acceptNew | accept | skip
  deriving DecidableEq, Repr

/-- Results of `ssh_session_is_known_server` (src/session_client_ssh.c:478-594). -/
inductive Known | ok | changed | other | notFound | unknown | error
  deriving DecidableEq, Repr

/-- The surroundings of the check: whether the data of the server's key can be got (339-370), what the known hosts say, whether storing an entry succeeds
(326-337), whether the library was built with terminals, the terminals can be opened, whether all text is written before the first question, whether the n-th repeated
question is written, and the input. (src/session_client_ssh.c:448-612) -/
structure Host where
  data : Bool
  known : Known
  update : Bool
  termios : Bool
  openIn : Bool
  openOut : Bool
  write : Bool
  rewrite : Nat → Bool
  input : Text

/-- White space as `isspace` in the C locale, used by `fscanf` (src/session_client_ssh.c:565). -/
def isSpace (c : Char) : Bool := c = ' ' || c = '\n' || c = '\t' || c = '\r' || c = Char.ofNat 11 || c = Char.ofNat 12

/-- `fscanf(in, "%4s", answer)` (src/session_client_ssh.c:565) and reading up to the end of the line (569); `none` is EOF. -/
def readAnswer (s : Text) : Option (Text × Text) :=
  match s.dropWhile isSpace with
  | [] => none
  | c :: t =>
    let w := ((c :: t).takeWhile (fun c => !isSpace c)).take 4
    some (w, (((c :: t).drop w.length).dropWhile (· ≠ '\n')).drop 1)

/-- An answer takes at least one character of the input (src/session_client_ssh.c:565). -/
theorem readAnswer_lt {s w r : Text} (h : readAnswer s = some (w, r)) : r.length < s.length := by
  unfold readAnswer at h
  split at h
  · cases h
  · rename_i c t hd
    have hs : (s.dropWhile isSpace).length ≤ s.length := (List.dropWhile_sublist _).length_le
    have hc : isSpace c = false := by
      have := List.head?_dropWhile_not isSpace s
      rw [hd] at this
      simpa using this
    simp only [Option.some.injEq, Prod.mk.injEq] at h
    obtain ⟨h1, h2⟩ := h
    rw [hd] at hs
    have hw : 1 ≤ (((c :: t).takeWhile (fun c => !isSpace c)).take 4).length := by
      simp [hc]
    have h3 : (((c :: t).drop w.length).dropWhile (· ≠ '\n')).length ≤ ((c :: t).drop w.length).length :=
      (List.dropWhile_sublist _).length_le
    rw [h1] at hw
    rw [← h2, h1]
    rw [List.length_drop] at h3 ⊢
    simp only [List.length_cons] at h3 hs ⊢
    omega

/-- The loop asking the user (src/session_client_ssh.c:564-584): whether the connection goes on. -/
def askLoop (rewrite : Nat → Bool) (n : Nat) (s : Text) : Bool :=
  match h : readAnswer s with
  | none => false                                                     -- 565-568
  | some (w, r) =>
    if w = ['y', 'e', 's'] then true                                     -- 572-574; a failure of storing is ignored
    else if w = ['n', 'o'] then false                                -- 575-576
    else if rewrite n then askLoop rewrite (n + 1) r else false       -- 577-583
termination_by s.length
decreasing_by exact readAnswer_lt h

/-- `nc_client_ssh_auth_hostkey_check` (src/session_client_ssh.c:448-612): whether it succeeds, and the number of attempts to add an entry to the known hosts. -/
def hostkeyCheck (mode : Mode) (e : Host) : Bool × Nat :=
  if mode = .skip then (true, 0)                                      -- 469-472
  else if e.data = false then (false, 0)                              -- 474-476
  else
    match e.known with
    | .ok => (true, 0)                                                -- 480-481
    | .changed => (decide (mode = .accept), 0)                        -- 482-490
    | .error => (false, 0)                                            -- 591-593
    | .other | .notFound | .unknown =>
      if mode = .strict then (false, 0)                               -- 509-512
      else if mode = .acceptNew ∨ mode = .accept then (e.update, 1)   -- 513-522
      else if e.termios && e.openIn && e.openOut && e.write then      -- 524-562
        (askLoop e.rewrite 0 e.input, if askLoop e.rewrite 0 e.input then 1 else 0)
      else (false, 0)                                                 -- 526-532, 586-587

/-! ## Key pairs -/

/-- A key pair of the options (src/session_p.h:331-336). -/
structure Key where
  pub : Text
  priv : Text
  crypt : Bool
  deriving DecidableEq, Repr

/-- The file system: `realpath` and the content of a file that can be opened (src/session_client_ssh.c:1028-1046). -/
structure Files where
  realpath : Text → Option Text
  content : Text → Option Text

/-- `fgets` with a buffer of 128 bytes (src/session_client_ssh.c:1003, 1048): up to 127 characters, at most one line. -/
def fgets (s : Text) : Option (Text × Text) :=
  let line := s.takeWhile (· ≠ '\n')
  let l := (if s.drop line.length = [] then line else line ++ ['\n']).take 127
  if l = [] then none else some (l, s.drop l.length)

/-- `strcasestr(line, "encrypted") != NULL` (src/session_client_ssh.c:1060). -/
def saysEncrypted : Text → Bool
  | [] => false
  | c :: t => "encrypted".toList.isPrefixOf ((c :: t).map Char.toLower) || saysEncrypted t

/-- Results of adding a pair, and the list of pairs afterwards (src/session_client_ssh.c:998-1066). -/
structure Added where
  ok : Bool
  keys : List Key
  deriving DecidableEq, Repr

/-- `_nc_client_ssh_add_keypair` (src/session_client_ssh.c:998-1066). -/
def addKeypair (fs : Files) (keys : List Key) (pub priv : Text) : Added :=
  if keys.any (fun k => k.pub = pub ∧ k.priv = priv) then ⟨false, keys⟩            -- 1007-1022
  else match fs.realpath pub with
    | none => ⟨false, keys⟩                                                        -- 1029-1032
    | some p =>
      match fs.realpath priv with
      | none => ⟨false, keys⟩                                                      -- 1034-1038
      | some q =>
        match fs.content q with
        | none => ⟨true, keys ++ [⟨p, q, false⟩]⟩                                  -- 1046
        | some c =>
          match fgets c with
          | none => ⟨false, keys ++ [⟨p, q, false⟩]⟩                               -- 1048-1052
          | some (_, r) =>
            match fgets r with
            | none => ⟨false, keys ++ [⟨p, q, false⟩]⟩                             -- 1054-1058
            | some (l, _) => ⟨true, keys ++ [⟨p, q, saysEncrypted l⟩]⟩             -- 1060-1062

/-- `_nc_client_ssh_del_keypair` (src/session_client_ssh.c:1080-1104); `none` is undefined (access before the array). The pairs freed are the pair of the index. -/
def delKeypair (keys : List Key) (idx : Int) : Option (Bool × List Key) :=
  if idx ≥ keys.length then some (false, keys)                                     -- 1083-1086
  else match idx with
    | .negSucc _ => none                                                           -- 1088
    | .ofNat i =>
      if i < keys.length - 1 then
        match keys[keys.length - 1]? with
        | some l => some (true, (keys.set i l).dropLast)                           -- 1091-1094
        | none => none
      else some (true, keys.dropLast)                                              -- 1091

/-! ## Authentication -/

/-- Results of libssh's authentication functions (src/session_client_ssh.c:1535-1554). -/
inductive Res | success | denied | part | error | again | info
  deriving DecidableEq, Repr

/-- Results of reading a key file: success, no access, not a key (src/session_client_ssh.c:1472-1479, 1504-1515). -/
inductive Import | ok | eof | error
  deriving DecidableEq, Repr

/-- The methods: interactive, password, public key (src/session_client_ssh.c:1349-1375). -/
inductive Method | kbd | pw | key
  deriving DecidableEq, Repr

/-- Sets of methods: the flags of `userauthlist` (src/session_client_ssh.c:1346). -/
structure Methods where
  kbd : Bool
  pw : Bool
  key : Bool
  deriving DecidableEq, Repr

/-- Whether a method is in a set. (src/session_client_ssh.c:1365-1373) -/
def Methods.has (s : Methods) : Method → Bool
  | .kbd => s.kbd
  | .pw => s.pw
  | .key => s.key

/-- The options used (src/session_p.h:321-345): the preferences, the key pairs, and what the callback for passwords returns (`none`: NULL). -/
structure Opts where
  mode : Mode
  pref : Method → Int
  keys : List Key
  password : Option Text

/-- Preferences set when a context is created (src/session_client.c:78, 174-179). -/
def defaultPref : Method → Int
  | .kbd => 1
  | .pw => 2
  | .key => 3

/-- `_nc_client_ssh_set_auth_pref` (src/session_client_ssh.c:1169-1183). -/
def setPref (pref : Method → Int) (m : Method) (v : Int) : Method → Int := fun x => if x = m then (if v < 0 then -1 else v) else pref x

/-- A server with its state: `ssh_connect` (`again`: timeout), asking without credentials, the methods it offers, its reactions to a password, to asking whether a key
would be accepted, to a signature; an interactive dialogue gives for every question whether it has a prompt and its answer is set, round after round, and the final
result (`info` cannot be one: the loop goes on). (src/session_client_ssh.c:1306, 1329, 1346, 1402, 1420-1453, 1484, 1520) -/
structure Server (σ : Type) where
  connect : Res
  none : σ → Res × σ
  offers : σ → Methods
  password : Text → σ → Res × σ
  kbd : σ → List (List Bool) × Res × σ
  tryKey : Key → σ → Res × σ
  sign : Key → σ → Res × σ

/-- The client's own files: reading a public key, reading a private key with (`true`) or without asking for a passphrase.
(src/session_client_ssh.c:1472, 1498-1504) -/
structure KeyFiles where
  pub : Key → Import
  priv : Key → Bool → Import

/-- What the client does to authenticate, with the result (src/session_client_ssh.c:1329, 1402, 1420, 1484, 1499, 1520). -/
inductive Ev | none (r : Res) | password (p : Text) (r : Res) | kbd (r : Res) | tryKey (k : Key) (r : Res) | passphrase (k : Key) | sign (k : Key) (r : Res)
  deriving DecidableEq, Repr

/-- The loop trying the key pairs (src/session_client_ssh.c:1467-1531): `ret` is the variable `ret_auth`. -/
def keysLoop {σ : Type} (srv : Server σ) (kf : KeyFiles) : List Key → Res → σ → Res × σ × List Ev
  | [], ret, s => (ret, s, [])
  | k :: ks, ret, s =>
    if kf.pub k ≠ .ok then keysLoop srv kf ks ret s                                     -- 1472-1479
    else
      match srv.tryKey k s with
      | (.denied, s) => let r := keysLoop srv kf ks .denied s; (r.1, r.2.1, .tryKey k .denied :: r.2.2)         -- 1492-1493
      | (.success, s) =>
        let asked := if k.crypt then [Ev.passphrase k] else []                          -- 1498-1502
        if kf.priv k k.crypt ≠ .ok then                                                 -- 1504-1515
          let r := keysLoop srv kf ks .success s; (r.1, r.2.1, .tryKey k .success :: asked ++ r.2.2)
        else
          match srv.sign k s with
          | (.denied, s) => let r := keysLoop srv kf ks .denied s; (r.1, r.2.1, .tryKey k .success :: asked ++ .sign k .denied :: r.2.2)
          | (x, s) => (x, s, .tryKey k .success :: asked ++ [.sign k x])                -- 1528-1530
      | (x, s) => (x, s, [.tryKey k x])                                                 -- 1494-1496

/-- The method used next (src/session_client_ssh.c:1363-1375). -/
def choose (pref : Method → Int) (l : Methods) : Option Method :=
  let a : Option Method × Int := if l.kbd then (some .kbd, pref .kbd) else (none, 0)
  let b : Option Method × Int := if l.pw ∧ pref .pw > a.2 then (some .pw, pref .pw) else a
  if l.key ∧ pref .key > b.2 then some .key else b.1

/-- Removing a method from the set (src/session_client_ssh.c:1390, 1413, 1457). -/
def Methods.erase (s : Methods) : Method → Methods
  | .kbd => { s with kbd := false }
  | .pw => { s with pw := false }
  | .key => { s with key := false }

/-- Number of methods. (src/session_client_ssh.c:1346) -/
def Methods.card (s : Methods) : Nat := s.kbd.toNat + s.pw.toNat + s.key.toNat

/-- One method (src/session_client_ssh.c:1388-1533); `none` if the password could not be got. -/
def attempt {σ : Type} (srv : Server σ) (o : Opts) (kf : KeyFiles) (m : Method) (ret : Res) (s : σ) : Option (Res × σ × List Ev) :=
  match m with
  | .pw =>
    match o.password with
    | none => none                                                                      -- 1394-1397
    | some p => let r := srv.password p s; some (r.1, r.2, [.password p r.1])
  | .kbd =>
    let r := srv.kbd s
    if r.1.all (fun round => round.all id) then some (r.2.1, r.2.2, [.kbd r.2.1])
    else some (.error, r.2.2, [.kbd .error])                                            -- 1432-1435, 1440-1444, 1447-1449
  | .key => some (keysLoop srv kf o.keys ret s)                                         -- 1461-1531

/-- Results of connecting: success (1), failure (-1), timeout (0) (src/session_client_ssh.c:1283-1290). -/
inductive Out | ok | fail | timeout
  deriving DecidableEq, Repr

/-- A chosen method is in the set (src/session_client_ssh.c:1365-1375). -/
theorem choose_has {pref : Method → Int} {l : Methods} {m : Method} (h : choose pref l = some m) : l.has m = true := by
  rcases l with ⟨a, b, c⟩
  cases a <;> cases b <;> cases c <;> cases m <;> simp [choose, Methods.has] at h ⊢ <;> (repeat' split at h) <;> simp_all

/-- Removing a member makes the set smaller (src/session_client_ssh.c:1390). -/
theorem card_erase {l : Methods} {m : Method} (h : l.has m = true) : (l.erase m).card < l.card := by
  rcases l with ⟨a, b, c⟩
  cases m <;> (simp [Methods.has] at h; subst h; simp [Methods.card, Methods.erase])

/-- The loop over the methods (src/session_client_ssh.c:1362-1557). -/
def authLoop {σ : Type} (srv : Server σ) (o : Opts) (kf : KeyFiles) (l : Methods) (ret : Res) (s : σ) : Out × List Ev :=
  match h : choose o.pref l with
  | none => (.fail, [])                                                                 -- 1377-1385
  | some m =>
    match attempt srv o kf m ret s with
    | none => (.fail, [])
    | some (r, s', evs) =>
      match r with
      | .again => (.timeout, evs)                                                       -- 1536-1538
      | .error | .info => (.fail, evs)                                                  -- 1539-1541, 1551-1553
      | .success => (.ok, evs)                                                          -- 1548-1550, 1557-1559
      | .denied | .part => let x := authLoop srv o kf (l.erase m) r s'; (x.1, evs ++ x.2)
termination_by l.card
decreasing_by exact card_erase (choose_has h)

/-- Disabled methods are removed (src/session_client_ssh.c:1348-1360). -/
def enabled (pref : Method → Int) (l : Methods) : Methods :=
  ⟨l.kbd && decide (¬ pref .kbd < 0), l.pw && decide (¬ pref .pw < 0), l.key && decide (¬ pref .key < 0)⟩

/-- `connect_ssh_session` (src/session_client_ssh.c:1291-1560): the result, what was done to authenticate, and the attempts to add a known host. -/
def connect {σ : Type} (srv : Server σ) (o : Opts) (kf : KeyFiles) (e : Host) (s : σ) : Out × List Ev :=
  match srv.connect with
  | .again => (.timeout, [])                                                            -- 1312-1314
  | .success =>
    if (hostkeyCheck o.mode e).1 = false then (.fail, [])                               -- 1321-1324
    else
      match srv.none s with
      | (.again, _) => (.timeout, [.none .again])                                       -- 1335-1337
      | (.error, _) => (.fail, [.none .error])                                          -- 1338-1340
      | (.success, _) => (.ok, [.none .success])                                        -- 1341-1343
      | (r, s') => let x := authLoop srv o kf (enabled o.pref (srv.offers s')) r s'; (x.1, .none r :: x.2)
  | _ => (.fail, [])                                                                    -- 1315-1319

end Verif.ClientSsh
