import Verif.Model.Bytes

/-!
# RFC 6242 framing, stated independently of the implementation
-/

namespace Verif.Spec

/-- RFC 6242 section 4.2 `chunk`: LF HASH chunk-size LF chunk-data. -/
def chunk (c : List Byte) : List Byte := [10, 35] ++ dec c.length ++ [10] ++ c

/-- RFC 6242 section 4.2 `Chunked-Message`: the chunks followed by LF HASH HASH LF. -/
def frame11 (cs : List (List Byte)) : List Byte := cs.flatMap chunk ++ [10, 35, 35, 10]

/-- The octets RFC 6242 allows as the end-of-message marker of NETCONF 1.0: `]]>]]>`. -/
def eom : List Byte := [93, 93, 62, 93, 93, 62]

/-- `m` is the part of `s` preceding the first occurrence of the NETCONF 1.0 marker, `rest` the
part following it. -/
def FirstEom (s m rest : List Byte) : Prop :=
  s = m ++ eom ++ rest ∧ ∀ m' rest', s = m' ++ eom ++ rest' → m.length ≤ m'.length

/-- A byte string is a well-formed chunked message of RFC 6242: at least one chunk, each chunk of
1..4294967295 octets, its size printed in decimal without leading zeros. -/
def WellFramed (s : List Byte) (m : List Byte) : Prop :=
  ∃ cs : List (List Byte), cs ≠ [] ∧ (∀ c ∈ cs, 0 < c.length ∧ c.length ≤ 4294967295) ∧
    s = frame11 cs ∧ m = cs.flatten

end Verif.Spec
