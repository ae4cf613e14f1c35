import Verif.Model.AuthKeys
import Verif.Model.KeyUtil

/-!
# Replacements of missing system functions

compat/compat.c: used where the system does not provide the function. Modelled are those that src/ uses: `getline` (with its users), `strndup`,
`crypt_r` (with its user), `timegm`, `pthread_mutex_timedlock`, `pthread_mutex_clocklock` and `pthread_cond_clockwait`. The replacements of the read-write lock functions
have the same shape and are not used; `strnstr`, `strchrnul`, `vdprintf` and `get_current_dir_name` are not used either.
-/

namespace Verif.Compat

/-- Texts (compat/compat.c:259, 302). -/
abbrev Text := List Char

/-! ## getline -/

/-- The characters `fgets(line, 256, stream)` reads: at most 255, not beyond a line end (compat/compat.c:274). -/
def fgets (s : Text) : Text :=
  let l := (s.take 255).takeWhile (· ≠ '\n')
  l ++ ((s.take 255).drop l.length).take 1

/-- Results of `getline`: end of the file, undefined behaviour, or a line with the rest of the file and the size of the caller's buffer (compat/compat.c:259). -/
inductive Got | eof | ub | line (l rest : Text) (size : Option Nat)
  deriving DecidableEq, Repr

/-- `getline` (compat/compat.c:258-296), `size` is that of the caller's buffer (`none`: no buffer). Reading and allocating do not fail. `feof` needs no own state: at the end of
the file `fgets` reads nothing either. -/
def getline (s : Text) (size : Option Nat) : Got :=
  if s = [] then .eof                                                        -- 270-276
  else
    let l := ((fgets s).takeWhile (· ≠ '\x00')).takeWhile (· ≠ '\n')         -- 278-283
    let rest := s.drop (fgets s).length
    if l.length + 1 < 256 then .line l rest (some 256)                       -- 285-292
    else
      match size with
      | none => .ub                                                          -- 294, the buffer is NULL
      | some n => if l.length + 1 ≤ n then .line l rest (some n) else .ub    -- 294

/-- Something is read from a file that is not at its end (compat/compat.c:274). -/
theorem fgets_pos {s : Text} (h : s ≠ []) : 0 < (fgets s).length := by
  cases s with
  | nil => exact absurd rfl h
  | cons a t =>
    by_cases ha : a = '\n'
    · simp [fgets, ha]
    · simp [fgets, ha]

/-- The rest gets shorter (compat/compat.c:274). -/
theorem getline_rest_lt {s : Text} {size : Option Nat} {l rest : Text} {n : Option Nat} (h : getline s size = .line l rest n) : rest.length < s.length := by
  unfold getline at h
  split at h
  · cases h
  · rename_i hs
    have hp := fgets_pos hs
    have hl : 0 < s.length := List.length_pos_iff.mpr hs
    have key : (s.drop (fgets s).length).length < s.length := by rw [List.length_drop]; omega
    dsimp only at h
    split at h
    · cases h; exact key
    · split at h
      · cases h
      · split at h
        · cases h; exact key
        · cases h

/-- Results of reading a file: undefined behaviour, an error, or what was read (src/session_server_ssh.c:366; src/server_config_util.c:461). -/
inductive Read (α : Type) | ub | err | ok (a : α)
  deriving DecidableEq, Repr

/-- The loop over the lines of an authorized keys file with this `getline` (src/session_server_ssh.c:387-426). -/
def keysLoop (kt : Text → Bool) (s : Text) (size : Option Nat) (keys : List Text) : Read (List Text) :=
  match _h : getline s size with
  | .eof => .ok keys
  | .ub => .ub
  | .line l rest n =>
    match AuthKeys.parseLine kt l with
    | .skip => keysLoop kt rest n keys
    | .error => .err
    | .key d => keysLoop kt rest n (AuthKeys.push keys d)
termination_by s.length
decreasing_by all_goals exact getline_rest_lt ‹_›

/-- `nc_server_ssh_read_authorized_keys_file` with this `getline` (src/session_server_ssh.c:366-436). -/
def readKeys (kt : Text → Bool) (content : Option Text) : Read (List Text) :=
  match content with
  | none => .err                                                             -- 380-385
  | some s => keysLoop kt s none []

/-- The loop of `nc_server_config_util_read_ssh2_pubkey` with this `getline` (src/server_config_util.c:480-502): an empty line ends it. -/
def ssh2Loop (s : Text) (size : Option Nat) (acc : Text) : Read Text :=
  match _h : getline s size with
  | .eof => .ok acc
  | .ub => .ub
  | .line l rest n => if l = [] then .ok acc else ssh2Loop rest n (KeyUtil.ssh2Line acc l)
termination_by s.length
decreasing_by exact getline_rest_lt ‹_›

/-- `nc_server_config_util_read_ssh2_pubkey` with this `getline` (src/server_config_util.c:460-518). -/
def readSsh2 (file : Text) : Read Text :=
  match ssh2Loop file none [] with
  | .ub => .ub
  | .err => .err
  | .ok key => if key = [] then .err else .ok key                            -- 504-508

/-- `nc_server_config_util_get_ssh_pubkey_file` with this `getline` (src/server_config_util.c:564-610). -/
def sshPubkeyFile (lib : KeyUtil.Lib) (file : Option Text) : Read (Option Text) :=
  match file with
  | none => .err                                                             -- 576-581
  | some f =>
    match getline f none with
    | .eof => .err                                                           -- 586-590
    | .ub => .ub
    | .line header _ _ =>
      if KeyUtil.starts header KeyUtil.spkiHeader then                       -- 592-594
        match KeyUtil.readSpki lib f with
        | .ok t => .ok (some t)
        | .err => .err
        | .ub => .ub
      else if KeyUtil.starts header KeyUtil.ssh2Header then                  -- 595-597
        match readSsh2 f with
        | .ok t => .ok (some t)
        | .err => .err
        | .ub => .ub
      else
        match KeyUtil.readOpenssh lib f with                                 -- 598-600
        | .ok t => .ok t
        | .err => .err
        | .ub => .ub

/-- `nc_server_config_util_get_privkey` with this `getline` (src/server_config_util.c:759-837). -/
def getPrivkey (lib : KeyUtil.Lib) (file : Option Text) : Read (KeyUtil.Fmt × Text × KeyUtil.PKey) :=
  match file with
  | none => .err                                                             -- 770-775
  | some f =>
    match getline f none with
    | .eof => .err                                                           -- 778-782
    | .ub => .ub
    | .line header _ _ =>
      match KeyUtil.privkeyFormat header with
      | none => .err                                                         -- 785-789
      | some fmt =>
        let parsed : Option (Text × KeyUtil.PKey) :=                         -- 792-813
          match fmt with
          | .rsa | .ec | .x509 => KeyUtil.privkeyLibtls lib f
          | .openssh => KeyUtil.privkeyLibssh lib f
          | .unknown => none
        match parsed with
        | none => .err
        | some (priv, k) =>
          match KeyUtil.privkeyFormat priv with                              -- 816-820
          | none => .err
          | some fmt' =>
            match KeyUtil.stripHeaderFooter priv with                        -- 823-827
            | .ok data => .ok (fmt', data, k)
            | .err => .err
            | .ub => .ub

/-! ## strndup -/

/-- `strnlen` (compat/compat.c:308) on the memory from `s` on; `none` is a read behind its end. -/
def strnlen : (mem : Text) → (n : Nat) → Option Nat
  | _, 0 => some 0
  | [], _ + 1 => none
  | c :: t, n + 1 => if c = '\x00' then some 0 else (strnlen t n).map (· + 1)

/-- `strndup` (compat/compat.c:301-317): the outer `none` is undefined behaviour, the inner one is NULL. The result is the whole allocated memory. -/
def strndup (mem : Text) (n : Nat) (alloc : Bool) : Option (Option Text) :=
  match strnlen mem n with
  | none => none
  | some len => if alloc then some (some (mem.take len ++ ['\x00'])) else some none   -- 310-316

/-! ## crypt_r -/

/-- A password check: the password offered and the stored hash (src/session_server_ssh.c:626). -/
structure Check where
  pw : Text
  stored : Text
  deriving DecidableEq, Repr

/-- What threads do: the call of `crypt` (inside the lock; compat/compat.c:386-388) and the comparison of the result, which is in the static buffer of `crypt`
(src/session_server_ssh.c:655). -/
inductive Act | hash (i : Nat) | compare (i : Nat)
  deriving DecidableEq, Repr

/-- State: the static buffer, the threads that hold a pointer to it, and the results of finished checks (compat/compat.c:379, 387; src/session_server_ssh.c:649). -/
structure Crypt where
  buf : Option Text := none
  holds : List Nat := []
  results : List (Nat × Bool) := []
  deriving DecidableEq, Repr

/-- One action (compat/compat.c:378-391; src/session_server_ssh.c:649-655). `crypt` is NULL on an error, then the buffer is not changed. Actions out of order do nothing. -/
def cryptStep (crypt : Text → Text → Option Text) (checks : Nat → Check) (st : Crypt) : Act → Crypt
  | .hash i =>
    if i ∈ st.holds then st
    else
      match crypt (checks i).pw (checks i).stored with
      | none => { st with results := st.results ++ [(i, false)] }                                        -- 650-653
      | some h => { st with buf := some h, holds := i :: st.holds }
  | .compare i =>
    if i ∈ st.holds then
      { st with holds := st.holds.filter (· ≠ i), results := st.results ++ [(i, decide (st.buf = some (checks i).stored))] }
    else st

/-- A whole schedule (src/session_server_ssh.c:649-655). -/
def cryptRun (crypt : Text → Text → Option Text) (checks : Nat → Check) (acts : List Act) : Crypt :=
  acts.foldl (cryptStep crypt checks) {}

/-! ## timegm -/

/-- `timegm` (compat/compat.c:396-425) for the environment variable `TZ`, where `mktime` depends on `TZ` and `dup` is whether `strdup` succeeds. Result, and the values `TZ` has
from the first change on. The lock is a variable of the call, so it excludes nothing; other threads run between the steps. -/
def timegm {Tm : Type} (mktime : Option Text → Tm → Int) (dup : Bool) (tz : Option Text) (tm : Tm) : Int × List (Option Text) :=
  let saved := if dup then tz else none                                      -- 405-408
  (mktime (some []) tm, [some [], saved])                                    -- 409-419

/-! ## Timed locks -/

/-- Results of `pthread_mutex_trylock` (compat/compat.c:41). -/
inductive Try | free | busy | error
  deriving DecidableEq, Repr

/-- Results of `pthread_mutex_timedlock`: locked, time ran out, another error, or still waiting after the given polls (compat/compat.c:41, 52, 67). -/
inductive Timed | locked | timedOut | failed | waiting
  deriving DecidableEq, Repr

/-- A point of time (compat/compat.c:37). -/
structure Ts where
  sec : Int
  nsec : Int
  deriving DecidableEq, Repr

/-- `nsec_diff` (compat/compat.c:46-48). -/
def nsecDiff (abs cur : Ts) : Int := (abs.sec - cur.sec) * 1000000000 + (abs.nsec - cur.nsec)

/-- `pthread_mutex_timedlock` (compat/compat.c:32-68) for the results of `trylock` and the times read after them: the result and the requested sleeps in ns. -/
def timedlock (abs : Ts) : List (Try × Ts) → Timed × List Int
  | [] => (.waiting, [])
  | (.free, _) :: _ => (.locked, [])
  | (.error, _) :: _ => (.failed, [])
  | (.busy, cur) :: r =>
    let d := nsecDiff abs cur
    if d ≤ 0 then (.timedOut, [])                                            -- 50-53
    else
      let t := timedlock abs r
      (t.1, (if d < 5000000 then d else 5000000) :: t.2)                     -- 54-64

/-! ## Clocks -/

/-- The clocks (CMakeModules/UseCompat.cmake:51, 53). -/
inductive Clock | real | mono
  deriving DecidableEq, Repr

/-- What the system provides (CMakeModules/UseCompat.cmake:39-54). -/
structure Sys where
  mutexClock : Bool
  mutexTimed : Bool
  condClock : Bool
  monotonic : Bool
  deriving DecidableEq, Repr

/-- `COMPAT_CLOCK_ID` (CMakeModules/UseCompat.cmake:46-54). -/
def Sys.clock (y : Sys) : Clock := if y.mutexClock && y.monotonic then .mono else .real

/-- The clock `pthread_mutex_clocklock(.., COMPAT_CLOCK_ID, ..)` compares the deadline with, `none` is an error: that of the system, or the replacement
(compat/compat.c:73-82), which calls `pthread_mutex_timedlock` of the system or its replacement (compat/compat.c:43). -/
def Sys.mutexWaits (y : Sys) : Option Clock :=
  if y.mutexClock then some y.clock
  else if y.clock ≠ .real then none
  else if y.mutexTimed then some .real
  else some y.clock

/-- The clock `pthread_cond_clockwait` with the clock `c` compares the deadline with: the replacement (compat/compat.c:195-201) ignores it and the condition variables
have the default one (src/session.c:267, 270; src/session_server.c:857, 1195, 3195). -/
def Sys.condWaits (y : Sys) (c : Clock) : Clock := if y.condClock then c else .real

/-- A wait without a signal: the first instant at which the deadline has passed on the clock `used`, out of the given instants with both times (src/session.c:317). -/
def waitUntil (used : Clock) (deadline : Int) : List (Int × Int) → Option (Int × Int)
  | [] => none
  | (r, m) :: t => if deadline ≤ (match used with | .real => r | .mono => m) then some (r, m) else waitUntil used deadline t

/-- Waiting on a condition variable with `nc_timeouttime_get` and `pthread_cond_clockwait`, both with `COMPAT_CLOCK_ID` (src/session.c:56-58, 317, 975): starting at the
first instant, for `ms` milliseconds. Result: the instant at which it ends, times in ns. -/
def Sys.condTimeout (y : Sys) (ms : Nat) : List (Int × Int) → Option (Int × Int)
  | [] => none
  | (r, m) :: t => waitUntil (y.condWaits y.clock) ((match y.clock with | .real => r | .mono => m) + ms * 1000000) ((r, m) :: t)

end Verif.Compat
