import Verif.Model.TlsIo
import Verif.Model.Codec
/-
Calls of the two TLS libraries: OpenSSL (src/session_openssl.c) and Mbed TLS
(src/session_mbedtls.c).  Reading, writing, steps of the handshake, the
notification of closing, conversion to text with a growing buffer and Base64 of
Mbed TLS.  What the libraries return is a parameter; where a cause is turned
into it, the documented return value is used.
-/
namespace Verif.TlsWrap

open Verif.TlsIo

/-- `term_reason` of an ended session, src/session_openssl.c:957, 963. -/
inductive Reason where
  | dropped
  | other
deriving DecidableEq, Repr

/-- What reading returns and, if the status became `NC_STATUS_INVALID`, the
reason; src/session_openssl.c:954-983. -/
structure Out where
  rc : Int
  ended : Option Reason
deriving DecidableEq, Repr

/-- Results of `SSL_get_error`, src/session_openssl.c:948-974. -/
inductive SslErr where
  | wantRead
  | wantWrite
  | zeroReturn
  | syscall
  | ssl
  | unknown
deriving DecidableEq, Repr

/-- `nc_tls_read_wrap` with OpenSSL, src/session_openssl.c:938-984. -/
def osslRead (rc : Int) (err : SslErr) : Out :=
  if rc ≤ 0 then
    match err with
    | .wantRead | .wantWrite => ⟨0, none⟩
    | .zeroReturn => ⟨-1, some .dropped⟩
    | .syscall => ⟨-1, some .other⟩
    | .ssl => ⟨-1, some .other⟩
    | .unknown => ⟨-1, some .other⟩
  else ⟨rc, none⟩

/-- `nc_tls_write_wrap` with OpenSSL, src/session_openssl.c:986-1024. -/
def osslWrite (rc : Int) (err : SslErr) : Out :=
  if rc < 1 then
    match err with
    | .wantWrite | .wantRead => ⟨0, none⟩
    | .zeroReturn => ⟨-1, none⟩
    | .syscall => ⟨-1, none⟩
    | .ssl => ⟨-1, none⟩
    | .unknown => ⟨-1, none⟩
  else ⟨rc, none⟩

/-- `nc_server_tls_handshake_step_wrap` and `nc_client_tls_handshake_step_wrap`
with OpenSSL, src/session_openssl.c:597-629. -/
def osslHandshake (ret : Int) (err : SslErr) : Int :=
  if ret = 1 then 1
  else if ret = -1 then
    if err = .wantRead ∨ err = .wantWrite then 0 else -1
  else -1

/-- `MBEDTLS_ERR_SSL_WANT_READ`, src/session_mbedtls.c:890, 1214. -/
def wantRead : Int := -0x6900

/-- `MBEDTLS_ERR_SSL_WANT_WRITE`, src/session_mbedtls.c:859, 1215. -/
def wantWrite : Int := -0x6880

/-- `MBEDTLS_ERR_SSL_PEER_CLOSE_NOTIFY`, src/session_mbedtls.c:1218. -/
def peerClose : Int := -0x7880

/-- `nc_tls_read_wrap` with Mbed TLS, src/session_mbedtls.c:1205-1234. -/
def mbedRead (rc : Int) : Out :=
  if rc ≤ 0 then
    if rc = wantRead ∨ rc = wantWrite then ⟨0, none⟩
    else if rc = peerClose then ⟨-1, some .dropped⟩
    else ⟨-1, some .other⟩
  else ⟨rc, none⟩

/-- `nc_tls_write_wrap` with Mbed TLS, src/session_mbedtls.c:1236-1261. -/
def mbedWrite (rc : Int) : Out :=
  if rc < 0 then
    if rc = wantRead ∨ rc = wantWrite then ⟨0, none⟩
    else if rc = peerClose then ⟨-1, none⟩
    else ⟨-1, none⟩
  else ⟨rc, none⟩

/-- `nc_server_tls_handshake_step_wrap` with Mbed TLS,
src/session_mbedtls.c:908-921. -/
def mbedAccept (rc : Int) : Int :=
  if rc = 0 then 1 else if rc = wantRead ∨ rc = wantWrite then 0 else rc

/-- Result of `poll` at src/session_mbedtls.c:934-937: it fails or returns with
or without an event of a lost connection. -/
inductive PollRes where
  | failed
  | lost
  | fine
deriving DecidableEq, Repr

/-- `nc_client_tls_handshake_step_wrap` with Mbed TLS,
src/session_mbedtls.c:923-946. -/
def mbedConnect (rc : Int) (p : PollRes) : Int :=
  if rc = 0 then 1
  else if rc = wantRead ∨ rc = wantWrite then
    match p with
    | .failed => -1
    | .lost => -1
    | .fine => 0
  else rc

/-- Why reading from the TLS connection ends as it does; the causes told apart
at src/session_openssl.c:948-980 and src/session_mbedtls.c:1213-1230. -/
inductive Cause where
  | data (n : Nat)
  | nothing
  | ticket
  | closed
  | eof
  | lost (e : Errno)
  | broken
deriving DecidableEq, Repr

/-- What `SSL_read` and `SSL_get_error`, called at src/session_openssl.c:946-948,
give for a cause (documentation of OpenSSL 3: end of the stream without a
notification is `SSL_ERROR_SSL`; tickets are processed while reading). -/
def osslResult : Cause → Int × SslErr
  | .data n => ((n : Int) + 1, .unknown)
  | .nothing => (-1, .wantRead)
  | .ticket => (-1, .wantRead)
  | .closed => (0, .zeroReturn)
  | .eof => (-1, .ssl)
  | .lost _ => (-1, .syscall)
  | .broken => (-1, .ssl)

/-- Code that a callback (`nc_server_tls_recv`, src/session_mbedtls.c:878-899)
returns to Mbed TLS. -/
def ioCode : Io → Int
  | .count n => n
  | .want => wantRead
  | .connReset => -0x50
  | .failed => -0x4c

/-- What `mbedtls_ssl_read`, called at src/session_mbedtls.c:1211, gives for a
cause (documentation of Mbed TLS 3: 0 is the end of the stream without a
notification; a new ticket of TLS 1.3 is returned as a negative code unless the
library ignores tickets; an error of the callback is handed on). -/
def mbedResult : Cause → Int
  | .data n => (n : Int) + 1
  | .nothing => wantRead
  | .ticket => -0x7b00
  | .closed => peerClose
  | .eof => 0
  | .lost e => ioCode (ioStep (.error e))
  | .broken => -0x7180

/-- Sending the notification with Mbed TLS: `left` bytes of it are still to be
sent and `s` has the results of the following calls of `send`.  `none` if all
results are used up and the loop goes on, otherwise whether the notification was
sent and the results not used.  The loop of src/session_mbedtls.c:1280-1286
around that of `mbedtls_ssl_close_notify`, with `nc_server_tls_send`
(src/session_mbedtls.c:847-868). -/
def mbedClose : Nat → List (Except Errno Nat) → Option (Bool × List (Except Errno Nat))
  | 0, s => some (true, s)
  | _ + 1, [] => none
  | left + 1, r :: s =>
    match ioStep r with
    | .count n => if n = 0 then some (true, s) else mbedClose (left + 1 - n) s
    | .want => mbedClose (left + 1) s
    | .connReset => some (false, s)
    | .failed => some (false, s)

/-- Sending the notification with OpenSSL: `SSL_shutdown` is called once and
tries to send once (src/session_openssl.c:1038-1042). -/
def osslClose : Nat → List (Except Errno Nat) → Option (Bool × List (Except Errno Nat))
  | 0, s => some (true, s)
  | _ + 1, [] => none
  | left + 1, r :: s =>
    match r with
    | .ok n => some (decide (left + 1 ≤ n), s)
    | .error _ => some (false, s)

/-- The TLS part of `nc_session_free_transport`, src/session.c:815-821. -/
def freeNotify (close : Nat → List (Except Errno Nat) → Option (Bool × List (Except Errno Nat)))
    (connected : Bool) (left : Nat) (s : List (Except Errno Nat)) : Option (Bool × List (Except Errno Nat)) :=
  if connected then close left s else some (false, s)

/-- Result of a conversion with a growing buffer: an error or the text and the
size of its buffer; src/session_mbedtls.c:92-106. -/
inductive Conv where
  | err
  | ok (t : List Char) (size : Nat)
deriving DecidableEq, Repr

/-- Growing the buffer until the library function (`mbedtls_x509_dn_gets`,
`mbedtls_pk_write_key_pem`, `mbedtls_pk_write_pubkey_pem`,
`mbedtls_ecp_point_write_binary`) does not report a small buffer:
src/session_mbedtls.c:95-99, 1320-1324, 1365-1369, 1500-1507.  `need` is the size
it needs, `mem` tells whether there is memory for a size.  (A size of 0 does not
occur; `size_t` does not wrap.) -/
def grow (mem : Nat → Bool) (need size : Nat) : Option Nat :=
  if size < need then
    if size = 0 then none
    else if mem (size * 2) then grow mem need (size * 2) else none
  else some size
termination_by need - size

/-- `nc_server_tls_dn2str`, src/session_mbedtls.c:85-107; `t` is the name as
text, which needs one byte more. -/
def dn2str (mem : Nat → Bool) (t : List Char) : Conv :=
  if mem 64 then
    match grow mem (t.length + 1) 64 with
    | none => .err
    | some n => if t.length < 1 then .err else .ok t n
  else .err

/-- `nc_tls_export_privkey_pem_wrap` and `nc_tls_export_pubkey_pem_wrap`,
src/session_mbedtls.c:1310-1332, 1355-1377; `t` is `none` if the key cannot be
written. -/
def exportPem (mem : Nat → Bool) (t : Option (List Char)) : Conv :=
  if mem 128 then
    match t with
    | none => .err
    | some t =>
      match grow mem (t.length + 1) 128 with
      | none => .err
      | some n => .ok t n
  else .err

/-- `nc_tls_ec_point_to_bin_wrap`, src/session_mbedtls.c:1490-1517 (bytes as
characters, no final NUL). -/
def pointToBin (mem : Nat → Bool) (t : Option (List Char)) : Conv :=
  if mem 32 then
    match t with
    | none => .err
    | some t =>
      match grow mem t.length 32 with
      | none => .err
      | some n => .ok t n
  else .err

/-- Result of `mbedtls_base64_encode` and `mbedtls_base64_decode`, called at
src/session_mbedtls.c:1158, 1168, 1185, 1194: small buffer with the size needed,
invalid text, or what was written. -/
inductive B64 (α : Type) where
  | small (n : Nat)
  | invalid
  | ok (a : List α)
deriving DecidableEq, Repr

/-- `mbedtls_base64_encode` with a buffer of `dlen` bytes (0 for NULL), called
at src/session_mbedtls.c:1185, 1194: nothing to convert is no error. -/
def libEncode (dlen : Nat) (bin : List Nat) : B64 Char :=
  if bin = [] then .ok []
  else
    let n := (bin.length / 3 + if bin.length % 3 = 0 then 0 else 1) * 4
    if dlen < n + 1 then .small (n + 1) else .ok (Codec.encodeBlock bin)

/-- Value of a character, in `mbedtls_base64_decode` called at
src/session_mbedtls.c:1158. -/
def digitValue (c : Char) : Option Nat := if c = '=' then none else Codec.value c

/-- The first pass of `mbedtls_base64_decode`, called at
src/session_mbedtls.c:1158: the digits and padding characters, or `none` for an
invalid text.  `sp`: blanks were skipped just before; `eq`: padding seen. -/
def scan (sp : Bool) (eq : Nat) : List Char → Option (List Char)
  | [] => some []
  | [c] =>
    if c = ' ' then some []
    else if c = '\n' then some []
    else if sp then none
    else if c = '=' then if 2 < eq + 1 then none else some [c]
    else if eq ≠ 0 then none
    else if (digitValue c).isSome then some [c] else none
  | c :: d :: r =>
    if c = ' ' then scan true eq (d :: r)
    else if c = '\r' ∧ d = '\n' then scan false eq (d :: r)
    else if c = '\n' then scan false eq (d :: r)
    else if sp then none
    else if c = '=' then
      if 2 < eq + 1 then none else (scan false (eq + 1) (d :: r)).map (c :: ·)
    else if eq ≠ 0 then none
    else if (digitValue c).isSome then (scan false eq (d :: r)).map (c :: ·) else none

/-- The second pass of `mbedtls_base64_decode`, called at
src/session_mbedtls.c:1168, on the digits and padding characters: bytes of each
group of four; `eq` counts padding characters. -/
def emit (eq : Nat) : List Char → List Nat
  | a :: b :: c :: d :: r =>
    let v := fun x => (digitValue x).getD 0
    let eq := eq + ([a, b, c, d].filter (· = '=')).length
    let x := ((v a * 64 + v b) * 64 + v c) * 64 + v d
    (x / 65536 % 256) :: ((if eq ≤ 1 then [x / 256 % 256] else []) ++
      (if eq = 0 then [x % 256] else []) ++ emit eq r)
  | _ => []

/-- `mbedtls_base64_decode` with a buffer of `dlen` bytes (0 for NULL), called
at src/session_mbedtls.c:1158, 1168. -/
def libDecode (dlen : Nat) (null : Bool) (t : List Char) : B64 Nat :=
  match scan false 0 t with
  | none => .invalid
  | some ds =>
    if ds = [] then .ok []
    else
      let n := (6 * (ds.length / 8) + (6 * (ds.length % 8) + 7) / 8) - (ds.filter (· = '=')).length
      if null ∨ dlen < n then .small n else .ok (emit 0 ds)

/-- `nc_base64_decode_wrap` with Mbed TLS, src/session_mbedtls.c:1151-1177;
`mem`: there is memory.  Writing more than the buffer has is undefined. -/
def decodeWrap (mem : Bool) (t : List Char) : Codec.Res (List Nat) :=
  match libDecode 0 true t with
  | .small size =>
    if mem then
      match libDecode size false t with
      | .ok w => if size < w.length then .ub else .ok w
      | _ => .err
    else .err
  | _ => .err

/-- `nc_base64_encode_wrap` with Mbed TLS, src/session_mbedtls.c:1179-1203;
`mem`: there is memory.  Writing more than the buffer has (with the final NUL)
is undefined. -/
def encodeWrap (mem : Bool) (bin : List Nat) : Codec.Res (List Char) :=
  match libEncode 0 bin with
  | .small size =>
    if mem then
      match libEncode size bin with
      | .ok t => if size < t.length + 1 then .ub else .ok t
      | _ => .err
    else .err
  | _ => .err

end Verif.TlsWrap
