import Verif.Model.Bytes

/-!
# Message writer (src/io.c:560-825)

The buffered write callback over a transport whose `write()` results are given by a script.
-/

namespace Verif.Writer

/-- `NC_VERSION_10` / `NC_VERSION_11` (src/session_p.h:667-668). -/
inductive Version where
  | v10
  | v11
  deriving DecidableEq, Repr

/-- Result of one primitive write (src/io.c:599-640): `acc k` accepted `k+1` bytes (or all that was
left), `again` is EAGAIN/EINTR, `fail inv` a hard error; `inv` says whether it also makes the session
invalid (TLS wrapper may, socket and SSH write errors do not, src/io.c:608-611, 627-630). -/
inductive WriteEv where
  | acc (k : Nat)
  | again
  | fail (inv : Bool)
  deriving DecidableEq, Repr

/-- Session side of a send: bytes accepted by the transport so far, future primitive write
results (exhausted script: everything is accepted), whether the session is still valid
(`NC_STATUS_RUNNING`/`STARTING`). (src/io.c:576-654) -/
structure Sink where
  wire : List Byte
  script : List WriteEv
  valid : Bool
  deriving DecidableEq, Repr

/-- The loop of `nc_write` (src/io.c:595-651); `bs` is what remains to be written. -/
def ncWriteLoop (wire : List Byte) (valid : Bool) : (script : List WriteEv) → (bs : List Byte) → Bool × Sink
  | [], bs => (true, ⟨wire ++ bs, [], valid⟩)
  | .again :: sc, bs => ncWriteLoop wire valid sc bs
  | .fail inv :: sc, _ => (false, ⟨wire, sc, valid && !inv⟩)
  | .acc k :: sc, bs =>
    if bs.length ≤ k + 1 then (true, ⟨wire ++ bs, sc, valid⟩)
    else ncWriteLoop (wire ++ bs.take (k + 1)) valid sc (bs.drop (k + 1))

/-- `nc_write` (src/io.c:576-654); `true` means not -1.  Simplification: the disconnection check
(lines 586-592) is part of the script (`fail true`). -/
def ncWrite (k : Sink) (bs : List Byte) : Bool × Sink :=
  if !k.valid then (false, k) else ncWriteLoop k.wire k.valid k.script bs

/-- `nc_write_starttag_and_msg` (src/io.c:665-688). -/
def startAndMsg (v : Version) (k : Sink) (bs : List Byte) : Bool × Sink :=
  match v with
  | .v11 =>
    match ncWrite k ([10, 35] ++ dec bs.length ++ [10]) with       -- "\n#%u\n"
    | (false, k1) => (false, k1)
    | (true, k1) => ncWrite k1 bs
  | .v10 => ncWrite k bs

/-- `nc_write_endtag` (src/io.c:697-709). -/
def endTag : Version → List Byte
  | .v11 => [10, 35, 35, 10]
  | .v10 => [93, 93, 62, 93, 93, 62]

/-- `struct nc_wclb_arg` (src/io.c:561-565): sink, the used part of `buf` (its length is `len`), and
the largest offset ever stored to in `buf` (ghost, for the overrun property). -/
structure WArg where
  sink : Sink
  buf : List Byte
  hi : Nat
  deriving DecidableEq, Repr

/-- `WRITE_BUFSIZE` (src/io.c:55, 560). -/
def bufSize : Nat := 1024

/-- `nc_write_clb_flush` (src/io.c:718-730). -/
def flush (v : Version) (w : WArg) : Bool × WArg :=
  if w.buf = [] then (true, w)
  else
    match startAndMsg v w.sink w.buf with
    | (ok, k) => (ok, { w with sink := k, buf := [] })

/-- Append to the buffer (`memcpy(&warg->buf[warg->len], ..)`, src/io.c:783-803), recording the
highest offset touched. -/
def store (w : WArg) (bs : List Byte) : WArg :=
  { w with buf := w.buf ++ bs, hi := max w.hi (w.buf.length + bs.length) }

/-- Escaping of one character (src/io.c:794-814). -/
def esc (b : Byte) : List Byte :=
  if b = 38 then [38, 97, 109, 112, 59]            -- &amp;
  else if b = 60 then [38, 108, 116, 59]           -- &lt;
  else if b = 62 then [38, 103, 116, 59]           -- &gt;
  else [b]

/-- The escaping loop (src/io.c:785-816). -/
def xmlLoop (v : Version) : (bs : List Byte) → WArg → Bool × WArg
  | [], w => (true, w)
  | b :: bs, w =>
    if w.buf.length + 5 ≥ bufSize then
      match flush v w with
      | (false, w1) => (false, w1)
      | (true, w1) => xmlLoop v bs (store w1 (esc b))
    else xmlLoop v bs (store w (esc b))

/-- `nc_write_clb` (src/io.c:742-825) with `buf != NULL`.  The test `len + count > WRITE_BUFSIZE` is
computed in `uint32_t` (line 766); callers pass `count < 2^32`. -/
def clb (v : Version) (w : WArg) (bs : List Byte) (xml : Bool) : Bool × WArg :=
  let r := if w.buf ≠ [] ∧ (w.buf.length + bs.length) % 2 ^ 32 > bufSize then flush v w else (true, w)
  match r with
  | (false, w1) => (false, w1)
  | (true, w1) =>
    if !xml && bs.length > bufSize then
      match startAndMsg v w1.sink bs with
      | (ok, k) => (ok, { w1 with sink := k })
    else if xml then xmlLoop v bs w1
    else (true, store w1 bs)

/-- `nc_write_clb` with `buf == NULL` (src/io.c:749-764): flush and end tag. -/
def clbEnd (v : Version) (w : WArg) : Bool × WArg :=
  match flush v w with
  | (false, w1) => (false, w1)
  | (true, w1) =>
    match ncWrite w1.sink (endTag v) with
    | (ok, k) => (ok, { w1 with sink := k })

/-- One use of the callback while a message is printed.  `checked` marks the writes issued by
libyang's printer (src/io.c:900, 990, 1028), whose failure makes `nc_write_msg_io` fail (assumption:
`lyd_print_clb` reports a failed callback); all other results are ignored (src/io.c:890-1068). -/
structure Op where
  bs : List Byte
  xml : Bool
  checked : Bool
  deriving DecidableEq, Repr

/-- The message part of `nc_write_msg_io` (src/io.c:881-1065): the writes in order; a failed checked
write aborts. -/
def runOps (v : Version) : List Op → WArg → Bool × WArg
  | [], w => (true, w)
  | o :: os, w =>
    match clb v w o.bs o.xml with
    | (ok, w1) => if o.checked && !ok then (false, w1) else runOps v os w1

/-- `nc_write_msg_io` (src/io.c:845-1082) from the first write to the result: `true` is "specific
message successfully sent" (lines 1067-1076).  The lock is not part of this model. -/
def sendMsg (v : Version) (k : Sink) (ops : List Op) : Bool × Sink :=
  if !k.valid then (false, k)
  else
    match runOps v ops ⟨k, [], 0⟩ with
    | (false, w) => (false, w.sink)
    | (true, w) =>
      match clbEnd v w with
      | (_, w1) => (w1.sink.valid, w1.sink)

/-- The text the printer asked to be sent. (src/io.c:881-1065) -/
def text : List Op → List Byte
  | [] => []
  | o :: os => (if o.xml then o.bs.flatMap esc else o.bs) ++ text os

/-- A sink that accepts everything. (src/io.c:595-651) -/
def goodSink (wire : List Byte) : Sink := ⟨wire, [], true⟩

end Verif.Writer
