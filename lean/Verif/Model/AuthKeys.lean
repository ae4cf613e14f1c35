/-!
# Keys of system users, answers for PAM and the time of authentication

`nc_server_ssh_read_authorized_keys_file`, `nc_server_ssh_create_ssh_pubkey`, `nc_pam_conv_clb`, `nc_server_ssh_kbdint_get_nanswers` and
`nc_accept_ssh_session_auth` (src/session_server_ssh.c). Memory allocation does not fail.
-/

namespace Verif.AuthKeys

/-- Texts (src/session_server_ssh.c:367, 371). -/
abbrev Text := List Char

/-! ## The authorized keys file -/

/-- `isspace` of the C locale (src/session_server_ssh.c:396, 414). -/
def isSpace (c : Char) : Bool := c = ' ' || c = '\t' || c = '\n' || c = '\x0b' || c = '\x0c' || c = '\r'

/-- `getline` (src/session_server_ssh.c:387): the first line with its end, and the rest. -/
def getline (s : Text) : Text × Text :=
  let l := s.takeWhile (· ≠ '\n')
  (l ++ (s.drop l.length).take 1, s.drop (l.length + 1))

/-- What a line gives: nothing, an error, or the data of a key (src/session_server_ssh.c:387-426). -/
inductive Line | skip | error | key (data : Text)
  deriving DecidableEq, Repr

/-- One line (src/session_server_ssh.c:388-425): a string ends at its first zero byte; `kt` says whether `ssh_key_type_from_name` gives one of the supported types. -/
def parseLine (kt : Text → Bool) (line : Text) : Line :=
  let s := line.takeWhile (· ≠ '\x00')
  if s.head? = some '#' ∨ s.head? = some '\n' then .skip                    -- 389-392
  else
    let ty := s.takeWhile (fun c => !isSpace c)                             -- 394-396
    match s.drop ty.length with
    | [] => .error                                                          -- 397-401
    | _ :: r =>
      if kt ty then .key (r.takeWhile (fun c => !isSpace c))                -- 405-407, 412-415
      else .skip                                                            -- 406-410

/-- A key is added; the counter has 16 bits (src/session_server_ssh.c:417-425). -/
def push (keys : List Text) (d : Text) : List Text := if keys.length + 1 = 65536 then [] else keys ++ [d]

/-- The rest of a file gets shorter (src/session_server_ssh.c:387). -/
theorem getline_lt {s : Text} (h : s ≠ []) : (getline s).2.length < s.length := by
  cases s with
  | nil => exact absurd rfl h
  | cons c t => simp [getline]; omega

/-- The loop over the lines (src/session_server_ssh.c:387-426); `none` is an error. -/
def readLines (kt : Text → Bool) (s : Text) (keys : List Text) : Option (List Text) :=
  if _h : s = [] then some keys
  else
    match parseLine kt (getline s).1 with
    | .skip => readLines kt (getline s).2 keys
    | .error => none
    | .key d => readLines kt (getline s).2 (push keys d)
termination_by s.length
decreasing_by all_goals exact getline_lt ‹_›

/-- `nc_server_ssh_read_authorized_keys_file` (src/session_server_ssh.c:366-436): the keys, or `none` on an error. -/
def readFile (kt : Text → Bool) (content : Option Text) : Option (List Text) :=
  match content with
  | none => none                                                            -- 380-385
  | some s => readLines kt s []

/-! ## Types of public keys -/

/-- Result of `strncmp(buf, lit, n) == 0`, where `buf` has a limited length; `none` is a read behind its end (src/session_server_ssh.c:1098-1112). -/
def strncmpEq : (buf lit : List Nat) → Nat → Option Bool
  | _, _, 0 => some true
  | [], _, _ + 1 => none
  | b :: bs, lit, n + 1 => if b ≠ lit.headD 0 then some false else if b = 0 then some true else strncmpEq bs lit.tail n

/-- Key types (src/session_server_ssh.c:1102-1111). -/
inductive KType | rsa | p256 | p384 | p521 | ed25519
  deriving DecidableEq, Repr

/-- Names of the types (src/session_server_ssh.c:1102-1110). -/
def KType.name : KType → String
  | .rsa => "ssh-rsa"
  | .p256 => "ecdsa-sha2-nistp256"
  | .p384 => "ecdsa-sha2-nistp384"
  | .p521 => "ecdsa-sha2-nistp521"
  | .ed25519 => "ssh-ed25519"

/-- Bytes of a name (src/session_server_ssh.c:1098). -/
def bytesOf (s : String) : List Nat := s.toList.map Char.toNat

/-- The types in the order of the comparisons (src/session_server_ssh.c:1102-1110). -/
def ktypes : List KType := [.rsa, .p256, .p384, .p521, .ed25519]

/-- The comparisons (src/session_server_ssh.c:1102-1116); the outer `none` is a read behind the end. -/
def matchType (buf : List Nat) (n : Nat) : List KType → Option (Option KType)
  | [] => some none
  | t :: ts =>
    match strncmpEq buf (bytesOf t.name) n with
    | none => none
    | some true => some (some t)
    | some false => matchType buf n ts

/-- Detection of the type from the decoded data: `nc_server_ssh_get_pubkey_type` and the comparisons (src/session_server_ssh.c:1053-1067, 1094-1116). -/
def keyType (bin : List Nat) : Option (Option KType) :=
  match bin with
  | a :: b :: c :: d :: buf =>
    let n := ((a * 256 + b) * 256 + c) * 256 + d
    match strncmpEq buf (bytesOf "ssh-dss") n with
    | none => none
    | some true => some none
    | some false => matchType buf n ktypes
  | _ => none                                                               -- 1058

/-- The libraries: base64 decoding (`none` on an error), and libssh's import of a key of a type, keys are abstract. (src/session_server_ssh.c:1088, 1103-1111) -/
structure Libs where
  decode : Text → Option (List Nat)
  imp : Text → KType → Option Nat

/-- `nc_server_ssh_create_ssh_pubkey` (src/session_server_ssh.c:1076-1124): the outer `none` is undefined, the inner one an error. -/
def createKey (lib : Libs) (data : Text) : Option (Option Nat) :=
  match lib.decode data with
  | none => some none
  | some bin =>
    match keyType bin with
    | none => none
    | some none => some none
    | some (some t) => some (lib.imp data t)

/-- `nc_server_ssh_auth_pubkey_compare_key` (src/session_server_ssh.c:1132-1161): whether the key is one of the stored ones; `none` is undefined. -/
def compareKey (lib : Libs) (key : Nat) : List Text → Option Bool
  | [] => some false
  | d :: ds =>
    match createKey lib d with
    | none => none
    | some none => compareKey lib key ds
    | some (some k) => if k = key then some true else compareKey lib key ds

/-- Checking a key of a system user (src/session_server_ssh.c:1256, 1274): `false` if it is refused. -/
def systemKey (kt : Text → Bool) (lib : Libs) (content : Option Text) (key : Nat) : Option Bool :=
  match readFile kt content with
  | none => some false
  | some ds => compareKey lib key ds

/-! ## PAM conversation -/

/-- Message styles (src/session_server_ssh.c:735). -/
inductive Style | echoOff | echoOn | info | error | other
  deriving DecidableEq, Repr

/-- Return values (src/session_server_ssh.c:709, 714). -/
inductive PamRet | success | convErr
  deriving DecidableEq, Repr

/-- The result: return value, the prompts sent to the client with their echo flags, and the array of responses (an entry without a string is `none`).
(src/session_server_ssh.c:762-765, 788) -/
structure Conv where
  ret : PamRet
  sent : Option (List (Text × Bool))
  resp : Option (List (Option Text))
  deriving DecidableEq, Repr

/-- The prompts and the flags (src/session_server_ssh.c:767-785). -/
def promptsOf : List (Style × Text) → List (Text × Bool)
  | [] => []
  | (.echoOn, m) :: t => (m, true) :: promptsOf t
  | (.echoOff, m) :: t => (m, false) :: promptsOf t
  | _ :: t => promptsOf t

/-- `nc_pam_conv_clb` (src/session_server_ssh.c:711-828): `send` is whether the request could be sent, `answers` are the client's answers, `none` if none came. -/
def pamConv (msgs : List (Style × Text)) (send : Bool) (answers : Option (List Text)) : Conv :=
  if msgs.length = 0 ∨ msgs.length ≥ 32 then ⟨.convErr, none, none⟩                           -- 725-730
  else if msgs.any (fun m => m.1 = .other) then ⟨.convErr, none, none⟩                        -- 732-740
  else if msgs.any (fun m => m.1 = .error) then ⟨.convErr, none, none⟩                        -- 748-752
  else
    let n := msgs.length - msgs.countP (fun m => m.1 = .info)                                 -- 743-747
    if n = 0 then ⟨.success, none, none⟩                                                      -- 755-759
    else
      let resp := List.replicate n none                                                       -- 762
      if send = false then ⟨.convErr, none, some resp⟩                                        -- 788-793
      else
        match answers with
        | none => ⟨.convErr, some (promptsOf msgs), some resp⟩                                -- 796-799
        | some as =>
          if as.length ≠ n then ⟨.convErr, some (promptsOf msgs), some resp⟩                  -- 800-805
          else ⟨.success, some (promptsOf msgs), some (as.map some)⟩                          -- 807-821

/-! ## Time of authentication -/

/-- Whether something that comes at a time is there (src/session_server_ssh.c:680). -/
def arrived (d : Option Nat) (now : Nat) : Bool :=
  match d with
  | none => false
  | some t => decide (t ≤ now)

/-- The loop of `nc_server_ssh_kbdint_get_nanswers` (src/session_server_ssh.c:673-686), times in µs since its start, `limit` is the timeout (0: none). The calls
themselves take no time. Result: whether the reply came, and the time. -/
def waitLoop (limit : Nat) (d : Option Nat) (now : Nat) : Bool × Nat :=
  if arrived d now then (true, now)                                          -- 680-683
  else if h : limit ≠ 0 ∧ now + 100 + 1000 ≤ limit then waitLoop limit d (now + 100)   -- 685-686
  else (false, now + 100)
termination_by limit - now
decreasing_by omega

/-- An interactive dialogue with several rounds, each given by the time the client takes to answer (src/session_server_ssh.c:795, 945). -/
def dialogue (limit : Nat) : List (Option Nat) → Bool × Nat
  | [] => (true, 0)
  | d :: ds =>
    match waitLoop limit d 0 with
    | (false, t) => (false, t)
    | (true, t) => let r := dialogue limit ds; (r.1, t + r.2)

/-- What happens in one iteration: nothing, the client disconnected, a request answered at once, or one with a dialogue; requests say whether they complete the
authentication if the client answers. (src/session_server_ssh.c:1874-1886) -/
inductive Step | idle | gone | quick (ok : Bool) | kbd (rounds : List (Option Nat)) (ok : Bool)
  deriving DecidableEq, Repr

/-- Ends of the authentication (src/session_server_ssh.c:1874-1877, 1887-1908). -/
inductive Auth | ok | timeout | error
  deriving DecidableEq, Repr

/-- The loop of `nc_accept_ssh_session_auth` (src/session_server_ssh.c:1873-1896) with the times in µs since its start: the end and its time, `none` if it did not
end in the given steps. -/
def authLoop (limit : Nat) : List Step → Nat → Option (Auth × Nat)
  | [], _ => none
  | s :: ss, now =>
    let check (t : Nat) : Option (Auth × Nat) :=
      if limit ≠ 0 ∧ ¬ t + 100 + 1000 ≤ limit then some (.timeout, t + 100) else authLoop limit ss (t + 100)      -- 1891-1895
    match s with
    | .gone => some (.error, now)                                                         -- 1874-1877
    | .idle => check now
    | .quick ok => if ok then some (.ok, now) else check now                              -- 1887-1889
    | .kbd rounds ok =>
      let r := dialogue limit rounds
      if r.1 ∧ ok = true then some (.ok, now + r.2) else check (now + r.2)

end Verif.AuthKeys
