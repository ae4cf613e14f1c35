/-!
# Texts printed into arrays of a fixed size

`sprintf` (src/io.c:672; src/messages_server.c:637; src/server_config_util.c:915, 1238, 1291, 1338, 1347; src/session.c:1186, 1191, 1196;
src/session_client.c:2876-3179; src/session_server.c:1799-1936; src/session_server_ssh.c:215-221) does not know the size of its array.
Printing more characters than the array has is undefined behaviour, `none` here.  Texts are `List Char` without NUL.
-/

namespace Verif.FixBuf

/-- C strings. (src/session_server.c:1854) -/
abbrev Text := List Char

/-- The digit for a value below 10 (`%u`, src/io.c:672). -/
def digit (d : Nat) : Char := Char.ofNat (48 + d)

/-- `%u`, and `%d` of a number which is not negative (src/io.c:672, src/server_config_util.c:915). -/
def dec (n : Nat) : Text := if n < 10 then [digit n] else dec (n / 10) ++ [digit (n % 10)]
termination_by n

/-- `sprintf` into an array of `size` characters, the NUL included (src/io.c:672). -/
def sprintf (size : Nat) (out : Text) : Option Text := if out.length + 1 ≤ size then some out else none

/-- `snprintf` into an array of `size` characters keeps what fits (src/session_client.c:1726). -/
def snprintf (size : Nat) (out : Text) : Text := out.take (size - 1)

/-- The header of a chunk in `chunksize[24]` (src/io.c:669-672); `count` is a `uint32_t`. -/
def chunkHeader (count : Nat) : Option Text := sprintf 24 (['\n', '#'] ++ dec count ++ ['\n'])

/-- `nc_err_set_sid` with `buf[22]` (src/messages_server.c:621, 637); `sid` is a `uint32_t`. -/
def errSid (sid : Nat) : Option Text := sprintf 22 (dec sid)

/-- `nc_server_config_add_address_port` with `port_buf[6]` (src/server_config_util.c:892, 915); `port` is a `uint16_t`. -/
def addPort (port : Nat) : Option Text := sprintf 6 (dec port)

/-- `nc_server_config_add_ch_period` with `buf[6]` (src/server_config_util.c:1228, 1238); `period` is a `uint16_t`. -/
def addPeriod (period : Nat) : Option Text := sprintf 6 (dec period)

/-- `nc_server_config_add_ch_idle_timeout` with `buf[6]` (src/server_config_util.c:1281, 1291); a `uint16_t`. -/
def addIdle (idle : Nat) : Option Text := sprintf 6 (dec idle)

/-- The values set by `nc_server_config_add_ch_reconnect_strategy` with `buf[6]` (src/server_config_util.c:1311, 1337-1348): `max_attempts`
(8 bits) and `max_wait` (16 bits), 0 is not set. -/
def addStrategy (attempts wait : Nat) : Option (Option Text × Option Text) :=
  match (if attempts ≠ 0 then (sprintf 6 (dec attempts)).map some else some none) with
  | none => none
  | some a =>
    match (if wait ≠ 0 then (sprintf 6 (dec wait)).map some else some none) with
    | none => none
    | some w => some (a, w)

/-- The number of an RPC in `str[11]` of `nc_send_rpc` (src/session_client.c:2626, 2876, 2889, 2989, 3052, 3075, 3084, 3114, 3122, 3141, 3161, 3169, 3179);
32 bits. -/
def rpcNumber (n : Nat) : Option Text := sprintf 11 (dec n)

/-- The port in `dst_port_str[6]` given to `getaddrinfo` (src/session_client.c:1715, 1726); 16 bits. -/
def dstPort (port : Nat) : Text := snprintf 6 (dec port)

/-- `nc_server_ssh_uid_to_str` (src/session_server_ssh.c:208-223): the array is allocated for the number of digits. -/
def uidToStr (uid : Nat) : Option Text := sprintf ((dec uid).length + 1) (dec uid)

/-- The content identifier without a callback, `malloc(11)` (src/session.c:1184-1186); the change count of a context has 16 bits. -/
def defaultContentId (changes : Nat) : Option Text := sprintf 11 (dec changes)

/-- Format at src/session.c:1191 with the revision in it. -/
def ylNew : Text := "urn:ietf:params:netconf:capability:yang-library:1.1?revision=2019-01-04&content-id=".toList

/-- Format at src/session.c:1196 with the revision in it. -/
def ylOld : Text := "urn:ietf:params:netconf:capability:yang-library:1.0?revision=2016-06-21&module-set-id=".toList

/-- The capability of the YANG library in `str[4096]` (src/session.c:1074-1075, 1189-1199); `new` says the revision of the module
is 2019-01-04. -/
def yangLibCap (new : Bool) (contentId : Text) : Option Text :=
  if new then sprintf 4096 (ylNew ++ contentId) else sprintf 4096 (ylOld ++ contentId)

/-- The capability with the content identifier of the application, if it has a callback (src/session.c:1179-1200). -/
def yangLib (new : Bool) (callback : Option Text) (changes : Nat) : Option Text :=
  match callback with
  | some id => yangLibCap new id
  | none =>
    match defaultContentId changes with
    | none => none
    | some id => yangLibCap new id

/-- What made polling a session fail (src/session_server.c:1796-1938). -/
inductive Fail where
  | idle                              -- 1799
  | ioLock                            -- 1807
  | sshEof                            -- 1849
  | sshError (text : Text)            -- 1854, text of libssh
  | internal (file : Text) (line : Nat) -- 1872, 1936
  | poll (err : Text)                 -- 1881, 1914, text of strerror
  | closed                            -- 1886, 1919
  | sockErr                           -- 1891, 1924
  deriving DecidableEq, Repr

/-- Start of the text at src/session_server.c:1854. -/
def tSsh : Text := "SSH channel poll error (".toList

/-- Start of the text at src/session_server.c:1872, 1936. -/
def tInternal : Text := "Internal error (".toList

/-- Start of the text at src/session_server.c:1881, 1914. -/
def tPoll : Text := "Poll failed (".toList

/-- The text for the log (src/session_server.c:1799-1936). -/
def Fail.text : Fail → Text
  | .idle => "Session idle timeout elapsed".toList
  | .ioLock => "Session IO lock failed to be acquired".toList
  | .sshEof => "SSH channel unexpected EOF".toList
  | .sshError t => tSsh ++ t ++ [')']
  | .internal f l => tInternal ++ f ++ [':'] ++ dec l ++ [')']
  | .poll e => tPoll ++ e ++ [')']
  | .closed => "Communication socket unexpectedly closed".toList
  | .sockErr => "Communication socket error".toList

/-- `nc_ps_poll_session_io` prints it into `msg[256]` of `nc_ps_poll_sess` (src/session_server.c:1961, 1969-1978). -/
def pollMsg (f : Fail) : Option Text := sprintf 256 f.text

end Verif.FixBuf
