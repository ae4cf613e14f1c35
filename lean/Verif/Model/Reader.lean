import Verif.Model.Bytes

/-!
# Message reader (src/io.c:57-383)

The transport is abstract: `rd n s` is one call of `nc_read` asking for exactly `n` bytes, which
either delivers `n` bytes and a new transport state or fails.  `readN` is the instance for a plain
byte stream; `ncRead` below models the read loop itself over arbitrary short reads.
-/

namespace Verif.Reader

/-- Result of a receive call.  `fail` is the return value -1, `bad` is -2 (malformed framing),
`ub` is undefined behaviour (out-of-bounds or indeterminate memory access). (src/io.c:270-383) -/
inductive Res (σ : Type) where
  | msg (m : List Byte) (s : σ)
  | fail
  | bad
  | ub
  deriving DecidableEq, Repr

/-- One result of the `read()`-like transport primitive inside `nc_read` (src/io.c:79-137):
`data k` delivers `k+1` bytes or fewer, if fewer were requested or are available; `again` is EAGAIN/EINTR/SSH_AGAIN
(nothing read, no timeout yet); `stop` is an error, EOF or an elapsed timeout. -/
inductive ReadEv where
  | data (k : Nat)
  | again
  | stop
  deriving DecidableEq, Repr

/-- Transport state of a plain byte stream read in pieces: remaining bytes and the results of
the future primitive reads (an exhausted script is `stop`). (src/io.c:57-170) -/
structure Chan where
  bytes : List Byte
  script : List ReadEv
  deriving DecidableEq, Repr

/-- The loop of `nc_read` (src/io.c:77-167) with `readd` bytes already in `buf`;
`script` is the list of primitive read results. -/
def ncReadLoop (count : Nat) : (script : List ReadEv) → (bytes buf : List Byte) → Option (List Byte × Chan)
  | [], _, _ => none
  | .stop :: _, _, _ => none
  | .again :: sc, bytes, buf => ncReadLoop count sc bytes buf          -- r == 0, try again
  | .data k :: sc, bytes, buf =>
    let r := min (k + 1) (count - buf.length)                     -- read(fd, buf + readd, count - readd)
    if bytes.length < r then
      if bytes = [] then none                                        -- EOF
      else
        ncReadLoop count sc [] (buf ++ bytes)                         -- count not reached
    else
      let buf' := buf ++ bytes.take r
      if buf'.length < count then ncReadLoop count sc (bytes.drop r) buf'
      else some (buf', ⟨bytes.drop r, sc⟩)

/-- `nc_read` (src/io.c:57-170).  Session status checks are left out (the session is running);
`count` 0 returns immediately (lines 72-74). -/
def ncRead (count : Nat) (c : Chan) : Option (List Byte × Chan) :=
  if count = 0 then some ([], c) else ncReadLoop count c.script c.bytes []

/-- `nc_read` on a stream that always delivers what was asked for, if it has enough bytes. (src/io.c:57-170) -/
def readN (n : Nat) (s : List Byte) : Option (List Byte × List Byte) :=
  if n ≤ s.length then some (s.take n, s.drop n) else none

/-- The `for` loop of `nc_read_until` (src/io.c:243-251): `i` counts down from `len - matched`;
the first comparison uses the old `matched`, all the later ones use 0. -/
def matchLoop (tag buf : List Byte) : (i matched : Nat) → Nat
  | 0, m => m
  | i + 1, m =>
    if (tag.drop m).take (i + 1) = buf.drop (buf.length - (i + 1)) then m + (i + 1)
    else matchLoop tag buf i 0

/-- `nc_read_until` (src/io.c:199-268) with `limit` 0 as in all its uses.  `fuel` bounds the number
of loop iterations (`none` when exhausted).  The buffer growth (lines 226-232) always keeps the
buffer large enough, see `Verif.Reader.untilSize`. -/
def readUntil {σ : Type} (rd : Nat → σ → Option (List Byte × σ)) (tag : List Byte) :
    (fuel : Nat) → (buf : List Byte) → (matched : Nat) → σ → Option (List Byte × σ)
  | 0, _, _, _ => none
  | f + 1, buf, m, s =>
    match rd (tag.length - m) s with
    | none => none
    | some (bs, s') =>
      let buf' := buf ++ bs
      let m' := matchLoop tag buf' (tag.length - m) m
      if m' = tag.length then some (buf', s')
      else readUntil rd tag f buf' m' s'

/-- The buffer size kept by `nc_read_until` (src/io.c:209-214, 226-232): `size` before the iteration that
stores `need` bytes at offset `count`; the allocation is `size + 1`. -/
def untilSize (size count need : Nat) : Nat :=
  if count + need ≥ size then size + 512 else size

/-- `]]>]]>` (src/session_p.h:671). -/
def endTag10 : List Byte := [93, 93, 62, 93, 93, 62]

/-- `\n#` and `\n` (src/io.c:314, 319). -/
def chunkStart : List Byte := [10, 35]
/-- End of a chunk header (src/io.c:319). -/
def lf : List Byte := [10]

/-- What `nc_read_chunk` (src/io.c:172-197) and its use (src/io.c:345-359) do with a chunk of the
announced length `len` (any 64-bit value).  -/
inductive Chunk (σ : Type) where
  | data (bs : List Byte) (s : σ)
  | fail
  | ub
  deriving DecidableEq, Repr

/-- `nc_read_chunk` (src/io.c:172-197) and the `memcpy` of its result (src/io.c:345-359).
* `malloc(len + 1)` is computed in 64 bits (line 184); `mallocOk` says whether an allocation of
  that size succeeds;
* `nc_read` takes a `uint32_t` count (line 58), so `len` is truncated;
* the result is converted to `int` (line 273), so 2^32-1 becomes -1;
* if the truncated count differs from `len`, `memcpy` copies `len` bytes although fewer were read
  (indeterminate memory), and for `len + 1 = 2^64` the buffer has size 0: `ub`. -/
def readChunk {σ : Type} (rd : Nat → σ → Option (List Byte × σ)) (mallocOk : Nat → Bool) (len : Nat) (s : σ) :
    Chunk σ :=
  if !mallocOk ((len + 1) % 2 ^ 64) then .fail
  else
    let cnt := len % 2 ^ 32
    if cnt = 0 then .fail                                    -- nc_read returned 0
    else if (len + 1) % 2 ^ 64 < cnt + 1 then
      -- buffer smaller than what nc_read stores; harmless only if not a single byte arrives
      match rd 1 s with
      | none => .fail
      | some _ => .ub
    else
      match rd cnt s with
      | none => .fail
      | some (bs, s') =>
        if cnt = 2 ^ 32 - 1 then .fail                       -- (int)r == -1
        else if len ≠ cnt then .ub                           -- memcpy of unread memory
        else .data bs s'

/-- A length stored in `int r` (src/io.c:273, 303, 314, 319), which has 32 bits. -/
def asInt (n : Nat) : Int := ((n : Int) + 2147483648) % 4294967296 - 2147483648

/-- The `NC_VERSION_11` loop of `nc_read_msg_io` (src/io.c:312-362).  `data = none` is the NULL
pointer before the first chunk. `F` is the fuel for `nc_read_until`. -/
def readMsg11 {σ : Type} (rd : Nat → σ → Option (List Byte × σ)) (mallocOk : Nat → Bool) (F : Nat) :
    (fuel : Nat) → (data : Option (List Byte)) → σ → Res σ
  | 0, _, _ => .fail
  | f + 1, data, s =>
    match readUntil rd chunkStart F [] 0 s with
    | none => .fail
    | some (start, s1) =>
      if asInt start.length = -1 then .fail                      -- r == -1
      else
      match readUntil rd lf F [] 0 s1 with
      | none => .fail
      | some (hdr, s2) =>
        if asInt hdr.length = -1 then .fail                      -- r == -1
        else if cstr hdr = [35, 10] then                         -- "#\n"
          match data with
          | none => .bad
          | some d => .msg (cstr d) s2
        else
          let len := strtoul hdr
          if len = 0 then .bad
          else
            match readChunk rd mallocOk len s2 with
            | .fail => .fail
            | .ub => .ub
            | .data bs s3 => readMsg11 rd mallocOk F f (some (data.getD [] ++ bs)) s3

/-- The `NC_VERSION_10` branch of `nc_read_msg_io` (src/io.c:302-311): the end tag is cut off by
writing a NUL at `r - 6`, which for a negative or small `int` is in front of the buffer. -/
def readMsg10 {σ : Type} (rd : Nat → σ → Option (List Byte × σ)) (F : Nat) (s : σ) : Res σ :=
  match readUntil rd endTag10 F [] 0 s with
  | none => .fail
  | some (buf, s') =>
    if asInt buf.length = -1 then .fail                          -- r == -1
    else if asInt buf.length < 6 then .ub
    else .msg (cstr (buf.take (asInt buf.length - 6).toNat)) s'

/-- `nc_read_msg_io` (src/io.c:270-383) on a byte stream delivering everything at once; the fuel
is sufficient because every iteration consumes at least one byte. -/
def recv11 (s : List Byte) : Res (List Byte) :=
  readMsg11 readN (fun _ => true) (s.length + 1) (s.length + 1) none s

/-- The same for NETCONF 1.0 (src/io.c:270-311). -/
def recv10 (s : List Byte) : Res (List Byte) := readMsg10 readN (s.length + 1) s

end Verif.Reader
