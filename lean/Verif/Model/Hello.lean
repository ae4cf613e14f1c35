/-!
# Capabilities and hello messages (src/session.c:1024-1555)

Texts are `List Char` (without NUL, as all C strings).
-/

namespace Verif.Hello

/-- C strings as lists of characters (src/session.c:1277-1325). -/
abbrev Text := List Char

/-- `isspace()` in the C locale. (src/session.c:1304-1306) -/
def isSpace (c : Char) : Bool := c == ' ' || c == '\t' || c == '\n' || c == '\x0b' || c == '\x0c' || c == '\r'

/-- Base capability of NETCONF 1.0 (src/session.c:1081, 1313). -/
def base10 : Text := "urn:ietf:params:netconf:base:1.0".toList

/-- Base capability of NETCONF 1.1 (src/session.c:1082, 1315). -/
def base11 : Text := "urn:ietf:params:netconf:base:1.1".toList

/-- Skipping leading and trailing white space (src/session.c:1304-1306). -/
def trim (t : Text) : Text := ((t.dropWhile isSpace).reverse.dropWhile isSpace).reverse

/-- `!strncmp(cpb, lit, strlen(cpb))` for a string literal: the trimmed capability is a prefix of the literal
(src/session.c:1313, 1315; the length passed is that of the received text). -/
def strncmpEq (cpb lit : Text) : Bool := cpb == lit.take cpb.length

/-- One child element of `<capabilities>`: whether it is `capability` of the base namespace, and its text. (src/session.c:1296-1303) -/
structure CapElem where
  isCapability : Bool
  value : Text
  deriving DecidableEq, Repr

/-- Version detection for one capability (src/session.c:1312-1317); `none` is -1. -/
def verStep (ver : Option Nat) (cpb : Text) : Option Nat :=
  if ver = none ∧ strncmpEq cpb base10 then some 0
  else if (ver = none ∨ ver = some 0) ∧ strncmpEq cpb base11 then some 1
  else ver

/-- The loop of `parse_cpblts` (src/session.c:1296-1325): `none` is an error return, otherwise the
version so far and the stored capabilities. -/
def parseLoop : List CapElem → Option Nat → List Text → Option (Option Nat × List Text)
  | [], ver, acc => some (ver, acc)
  | e :: es, ver, acc =>
    if !e.isCapability then none                            -- unexpected element
    else
      let cpb := trim e.value
      if cpb = [] then none                                 -- empty capability
      else parseLoop es (verStep ver cpb) (acc ++ [cpb])

/-- `parse_cpblts` (src/session.c:1277-1332): `none` is a negative return value. -/
def parseCpblts (es : List CapElem) : Option (Nat × List Text) :=
  match parseLoop es none [] with
  | none => none
  | some (none, _) => none
  | some (some v, caps) => some (v, caps)

/-! ## Hello documents -/

/-- A child of the root element: whether it is in the base namespace, its name, its text, and (for
`capabilities`) its children. (src/session.c:1403-1423) -/
structure Child where
  inBase : Bool
  name : Text
  value : Text
  caps : List CapElem
  deriving DecidableEq, Repr

/-- A document: name of the root element and its children. (src/session.c:1393-1403, 1490-1497) -/
structure Doc where
  root : Text
  children : List Child
  deriving DecidableEq, Repr

/-- Element names compared in the hello loops (src/session.c:1408, 1423, 1502) and the name a hello should have. -/
def sSessionId : Text := "session-id".toList

/-- See `sSessionId` (src/session.c:1423, 1502). -/
def sCapabilities : Text := "capabilities".toList

/-- The element name of a hello (RFC 6241, 8.1); the code never compares it. (src/session.c:1393-1403) -/
def sHello : Text := "hello".toList

/-- Value of a run of decimal digits, `none` if another character is met. (src/session.c:1415-1416) -/
def allDigits (acc : Nat) : Text → Option Nat
  | [] => some acc
  | c :: cs => if c.isDigit then allDigits (acc * 10 + (c.toNat - 48)) cs else none

/-- `strtoll(value, &str, 10)` followed by the test `*str` (src/session.c:1415-1416): the value if the whole text was
consumed.  Saturation at the limits of `long long` is kept. -/
def strtollFull (t : Text) : Option Int :=
  match t.dropWhile isSpace with
  | [] => none
  | '-' :: ds => if ds = [] then none else (allDigits 0 ds).map fun (v : Nat) => max (-(v : Int)) (-(2 ^ 63))
  | '+' :: ds => if ds = [] then none else (allDigits 0 ds).map fun (v : Nat) => min (v : Int) (2 ^ 63 - 1)
  | ds => (allDigits 0 ds).map fun (v : Nat) => min (v : Int) (2 ^ 63 - 1)

/-- What the client session learns from the hello. `flag` says a capability list was seen. (src/session.c:1382-1442) -/
structure ClientSt where
  id : Nat
  version : Nat
  flag : Bool
  cpblts : List Text
  deriving DecidableEq, Repr

/-- The loop over the children in `nc_client_recv_hello_io` (src/session.c:1403-1442); `none` is an error. -/
def clientLoop : List Child → ClientSt → Option ClientSt
  | [], st => some st
  | c :: cs, st =>
    if !c.inBase then clientLoop cs st
    else if c.name = sSessionId then
      if c.value = [] then none
      else
        match strtollFull c.value with
        | none => none
        | some id => if id < 1 ∨ id > 4294967295 then none else clientLoop cs { st with id := id.toNat }
    else if c.name ≠ sCapabilities then none
    else if st.flag then none
    else
      match parseCpblts c.caps with
      | none => none
      | some (v, caps) => clientLoop cs { st with flag := true, version := v, cpblts := caps }

/-- `nc_client_recv_hello_io` (src/session.c:1382-1463) on a parsed document (timeouts and parse failures left out);
the new session has id 0 and version 1.0. -/
def clientHello (d : Doc) : Option ClientSt :=
  match clientLoop d.children ⟨0, 0, false, []⟩ with
  | none => none
  | some st => if st.id = 0 then none else some st

/-- The loop over the children in `nc_server_recv_hello_io` (src/session.c:1497-1521): `none` is
NC_MSG_BAD_HELLO, otherwise the version and whether a capability list was seen. -/
def serverLoop : List Child → (version : Nat) → (flag : Bool) → Option (Nat × Bool)
  | [], v, f => some (v, f)
  | c :: cs, v, f =>
    if !c.inBase then serverLoop cs v f
    else if c.name ≠ sCapabilities then none
    else if f then none
    else
      match parseCpblts c.caps with
      | none => none
      | some (v', _) => serverLoop cs v' true

/-- `nc_server_recv_hello_io` (src/session.c:1471-1536): the root element is not looked at. -/
def serverHello (d : Doc) : Option Nat := (serverLoop d.children 0 false).map (·.1)

/-! ## The advertised list -/

/-- Length of the part of a capability before `?` (src/session.c:1033-1038). -/
def uriLen (t : Text) : Nat :=
  match t.findIdx? (· == '?') with
  | some i => i
  | none => t.length

/-- The presence test of `add_cpblt` (src/session.c:1040): first `len` characters equal and followed by the
end or `?`. -/
def samePresent (have_ capab : Text) : Bool :=
  let len := uriLen capab
  have_.length ≥ len && have_.take len == capab.take len && (have_.length == len || have_[len]? == some '?')

/-- `add_cpblt` (src/session.c:1024-1059) for a non-NULL capability. -/
def addCpblt (l : List Text) (capab : Text) : List Text :=
  if l.any (samePresent · capab) then l else l ++ [capab]

/-- The skeleton of `nc_server_get_cpblts_version` (src/session.c:1061-1269): the two base
capabilities and then all offered ones in order (features, with-defaults, application capabilities, models). -/
def advertised (offered : List Text) : List Text := offered.foldl addCpblt [base10, base11]

/-! ## with-defaults -/

/-- Values of `NC_WD_MODE` (src/netconf.h): not a bit mask. (src/netconf.h:100-106) -/
def wdAll : Nat := 1

/-- See `wdAll` (src/netconf.h, `NC_WD_ALL_TAG`). (src/netconf.h:103) -/
def wdAllTag : Nat := 2

/-- See `wdAll` (src/netconf.h, `NC_WD_TRIM`). (src/netconf.h:104) -/
def wdTrim : Nat := 3

/-- See `wdAll` (src/netconf.h, `NC_WD_EXPLICIT`). (src/netconf.h:105) -/
def wdExplicit : Nat := 4

/-- `nc_server_set_capab_withdefaults` (src/session_server.c:924-937): whether the arguments are accepted. -/
def wdAccept (basic also : Nat) : Bool :=
  !(basic = 0 || basic = wdAllTag) && !(also ≠ 0 && also &&& (wdAll ||| wdAllTag ||| wdTrim ||| wdExplicit) = 0)

/-- The modes named by the with-defaults capability, basic mode first (src/session.c:1121-1163): `none` if no
capability is advertised. -/
def wdAdvertised (basic also : Nat) : Option (Option Nat × List Nat) :=
  if basic = 0 then none
  else if also = 0 then none                     -- add_cpblt only inside `if (wd_also_supported)`
  else
    let b := if basic = wdAll then some wdAll else if basic = wdTrim then some wdTrim
      else if basic = wdExplicit then some wdExplicit else none
    some (b, (if also &&& wdAll ≠ 0 then [wdAll] else []) ++ (if also &&& wdAllTag ≠ 0 then [wdAllTag] else []) ++
      (if also &&& wdTrim ≠ 0 then [wdTrim] else []) ++ (if also &&& wdExplicit ≠ 0 then [wdExplicit] else []))

/-! ## The 4096 byte string buffer -/

/-- Feature names (src/session.c:1213-1236), as lengths.  `n` is the current string length; `first` says no
feature was printed yet; the result is the final length together with the largest length reached. -/
def featLoop : (lens : List Nat) → (n hi : Nat) → (first : Bool) → Nat × Nat
  | [], n, hi, _ => (n, hi)
  | l :: ls, n, hi, first =>
    let n1 := if first then n + 10 else n                          -- "&features=" unchecked
    let hi1 := max hi n1
    if n1 + 1 + l ≥ 4096 then (n1, hi1)                            -- break
    else
      let n2 := if first then n1 + l else n1 + 1 + l
      featLoop ls n2 (max hi1 n2) false

/-- Deviation names (src/session.c:1238-1256). -/
def devLoop : (lens : List Nat) → (n hi : Nat) → (first : Bool) → Nat × Nat
  | [], n, hi, _ => (n, hi)
  | l :: ls, n, hi, first =>
    if n + 1 + l ≥ 4096 then (n, hi)
    else
      let n2 := if first then n + l else n + 1 + l
      devLoop ls n2 (max hi n2) false

/-- Building of one module capability (src/session.c:1210-1258): largest string length reached in `str[4096]`;
`prefixLen` is the length printed by `sprintf` (namespace, name, revision), `devs = none` if there are no deviations. -/
def moduleCapHi (prefixLen : Nat) (feats : List Nat) (devs : Option (List Nat)) : Nat :=
  let (n, hi) := featLoop feats prefixLen prefixLen true
  match devs with
  | none => hi
  | some ds => (devLoop ds (n + 12) (max hi (n + 12)) true).2

end Verif.Hello
