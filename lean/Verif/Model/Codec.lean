/-
Converting keys to and from Base64 with OpenSSL (src/session_openssl.c:864-905),
collecting the reasons of failures of OpenSSL (src/session_openssl.c:912-936),
and writing messages of the library (src/log.c:36-130, src/log_p.h:45-49).
Sizes have no upper limit (`int` and `size_t` do not wrap).
-/
namespace Verif.Codec

/-- Result of a function with a buffer: writing behind its end (`ub`), an error,
or a value; src/session_openssl.c:864-905. -/
inductive Res (α : Type) where
  | ub
  | err
  | ok (a : α)
deriving DecidableEq, Repr

/-- Digit of Base64, as `EVP_EncodeBlock` called at src/session_openssl.c:896
writes it (RFC 4648). -/
def digit (d : Nat) : Char :=
  if d < 26 then Char.ofNat (65 + d)
  else if d < 52 then Char.ofNat (97 + (d - 26))
  else if d < 62 then Char.ofNat (48 + (d - 52))
  else if d = 62 then '+' else '/'

/-- Value of a character for `EVP_DecodeBlock`, called at
src/session_openssl.c:872; padding is taken for 0. -/
def value (c : Char) : Option Nat :=
  let n := c.toNat
  if 65 ≤ n ∧ n ≤ 90 then some (n - 65)
  else if 97 ≤ n ∧ n ≤ 122 then some (n - 97 + 26)
  else if 48 ≤ n ∧ n ≤ 57 then some (n - 48 + 52)
  else if c = '+' then some 62
  else if c = '/' then some 63
  else if c = '=' then some 0
  else none

/-- `EVP_EncodeBlock` without the final NUL, called at src/session_openssl.c:896. -/
def encodeBlock : List Nat → List Char
  | [] => []
  | [a] => [digit (a / 4), digit (a % 4 * 16), '=', '=']
  | [a, b] => [digit (a / 4), digit (a % 4 * 16 + b / 16), digit (b % 16 * 4), '=']
  | a :: b :: c :: r =>
    digit (a / 4) :: digit (a % 4 * 16 + b / 16) :: digit (b % 16 * 4 + c / 64) :: digit (c % 64) ::
      encodeBlock r

/-- Blanks skipped at the start by `EVP_DecodeBlock`, called at
src/session_openssl.c:872. -/
def blank (c : Char) : Bool := c = ' ' || c = '\t'

/-- Characters skipped at the end by `EVP_DecodeBlock`, called at
src/session_openssl.c:872. -/
def tailChar (c : Char) : Bool := c = ' ' || c = '\t' || c = '\n' || c = '\r' || c = '-'

/-- Skipping at the end, on the reversed text: at least 3 characters are left;
`EVP_DecodeBlock`, called at src/session_openssl.c:872. -/
def trimRev : List Char → List Char
  | [] => []
  | c :: r => if 2 < r.length ∧ tailChar c = true then trimRev r else c :: r

/-- Three bytes for each four characters: those written and whether all went
well; `EVP_DecodeBlock`, called at src/session_openssl.c:872. -/
def decodeQuads : List Char → List Nat × Bool
  | [] => ([], true)
  | a :: b :: c :: d :: r =>
    match value a, value b, value c, value d with
    | some a, some b, some c, some d =>
      let (w, ok) := decodeQuads r
      ((a * 4 + b / 16) :: (b % 16 * 16 + c / 4) :: (c % 4 * 64 + d) :: w, ok)
    | _, _, _, _ => ([], false)
  | _ => ([], false)

/-- `EVP_DecodeBlock`, called at src/session_openssl.c:872: the bytes written
and whether it succeeded.  A length that is not a multiple of 4 is refused
before anything is written. -/
def decodeBlock (t : List Char) : List Nat × Bool :=
  let u := (trimRev (t.dropWhile blank).reverse).reverse
  if u.length % 4 = 0 then decodeQuads u else ([], false)

/-- `nc_base64_decode_wrap`, src/session_openssl.c:864-879; `mem`: there is
memory. -/
def decodeWrap (mem : Bool) (t : List Char) : Res (List Nat) :=
  let size := t.length / 4 * 3
  if mem then
    let (w, ok) := decodeBlock t
    if size < w.length then .ub else if ok then .ok w else .err
  else .err

/-- Size of the buffer, src/session_openssl.c:887-891. -/
def encodeSize (len : Nat) : Nat :=
  if len % 3 ≠ 0 then len / 3 * 4 + 4 + 1 else len / 3 * 4 + 1

/-- `nc_base64_encode_wrap`, src/session_openssl.c:881-905.  (`EVP_EncodeBlock`
never fails.) -/
def encodeWrap (mem : Bool) (bin : List Nat) : Res (List Char) :=
  if mem then
    let t := encodeBlock bin
    if encodeSize bin.length < t.length + 1 then .ub else .ok t
  else .err

/-- `nc_tls_get_err_reasons`, src/session_openssl.c:912-936, from the loop on.
The list has what `ERR_reason_error_string` gives for each error of the queue
(`none` is NULL).  `mem n` tells whether there is memory for `n` bytes; `out` is
`reasons` (`none` is NULL) and `size` is `reason_size`; `reason_len` is the
length of the text. -/
def reasonsLoop (mem : Nat → Bool) : List (Option (List Char)) → Nat → Option (List Char) → Res (List Char)
  | [], _, none => .err
  | [], _, some t => .ok t
  | e :: es, size, out =>
    let t := out.getD []
    let size₁ := if 0 < t.length then size + 2 else size
    if 0 < t.length ∧ mem size₁ = false then .err
    else
      let t₁ := if 0 < t.length then t ++ [';', ' '] else t
      if 0 < t.length ∧ size₁ < t₁.length + 1 then .ub
      else
        match e with
        | none => .ub
        | some e =>
          let size₂ := size₁ + e.length
          if mem size₂ = false then .err
          else if size₂ < (t₁ ++ e).length + 1 then .ub
          else reasonsLoop mem es size₂ (some (t₁ ++ e))

/-- `nc_tls_get_err_reasons`, src/session_openssl.c:912-936; `err` is NULL. -/
def reasons (mem : Nat → Bool) (es : List (Option (List Char))) : Res (List Char) :=
  reasonsLoop mem es 1 none

/-- `NC_VERB_LEVEL`, src/log.h:33-39. -/
inductive Level where
  | error
  | warning
  | verbose
  | debug
  | debugLow
deriving DecidableEq, Repr

/-- The number of a level, src/log.h:33-39. -/
def Level.num : Level → Nat
  | .error => 0
  | .warning => 1
  | .verbose => 2
  | .debug => 3
  | .debugLow => 4

/-- `verb`, src/log.c:47-56. -/
def Level.label : Level → List Char
  | .error => ['[', 'E', 'R', 'R', ']']
  | .warning => ['[', 'W', 'R', 'N', ']']
  | .verbose => ['[', 'I', 'N', 'F', ']']
  | .debug => ['[', 'D', 'B', 'G', ']']
  | .debugLow => ['[', 'D', 'B', 'L', ']']

/-- What is done with a message, src/log.c:103-109. -/
inductive Out where
  | callback (l : Level) (t : List Char)
  | stderr (t : List Char)
deriving DecidableEq, Repr

/-- What can fail in `prv_vprintf`: allocating, printing, allocating more,
printing again; src/log.c:77-101. -/
structure LogEnv where
  mem₁ : Bool
  fmt₁ : Bool
  mem₂ : Bool
  fmt₂ : Bool
deriving DecidableEq, Repr

/-- `PRV_MSG_INIT_SIZE`, src/log.c:71. -/
def initSize : Nat := 256

/-- What `vsnprintf` with size `n` leaves in the buffer for the whole text `m`,
src/log.c:84; it returns the length of `m`. -/
def cut (n : Nat) (m : List Char) : List Char := m.take (n - 1)

/-- The text in the buffer when `prv_vprintf` outputs it, src/log.c:77-101; `m`
is the text that format and arguments make; `none`: nothing is output. -/
def logText (e : LogEnv) (m : List Char) : Option (List Char) :=
  if e.mem₁ = false then none
  else if e.fmt₁ = false then none
  else if m.length ≥ initSize - 1 then
    if e.mem₂ = false then none
    else if e.fmt₂ = false then none
    else some (cut (m.length + 1) m)
  else some (cut (initSize - 1) m)

/-- `prv_vprintf`, src/log.c:68-114; `clb`: a callback is set; `sid`: the id of
the session given (0 if it has none), as digits when printed. -/
def vprintf (e : LogEnv) (clb : Bool) (sid : Option Nat) (l : Level) (m : List Char) : List Out :=
  match logText e m with
  | none => []
  | some t =>
    if clb then [.callback l t]
    else
      match sid with
      | some (k + 1) =>
        [.stderr (['S', 'e', 's', 's', 'i', 'o', 'n', ' '] ++ Nat.toDigits 10 (k + 1) ++ [' '] ++ l.label ++
          [':', ' '] ++ t ++ ['\n'])]
      | _ => [.stderr (l.label ++ [':', ' '] ++ t ++ ['\n'])]

/-- `ERR`, `WRN`, `VRB`, `DBG` and `DBL`, src/log_p.h:45-49; `verb` is
`verbose_level`, set by `nc_verbosity`, src/log.c:40-45. -/
def log (verb : Level) (e : LogEnv) (clb : Bool) (sid : Option Nat) (l : Level) (m : List Char) : List Out :=
  match l with
  | .error => vprintf e clb sid .error m
  | .warning => if verb.num ≥ Level.warning.num then vprintf e clb sid .warning m else []
  | .verbose => if verb.num ≥ Level.verbose.num then vprintf e clb sid .verbose m else []
  | .debug => if verb.num ≥ Level.debug.num then vprintf e clb sid .debug m else []
  | .debugLow => if verb.num ≥ Level.debugLow.num then vprintf e clb sid .debugLow m else []

end Verif.Codec
