import Verif.Model.Hello
import Verif.Spec.Chars

/-!
# Specification side of the hello properties

Only the document types are shared with the model.
-/

namespace Verif.Spec

open Verif.Hello

/-- The base capability of NETCONF 1.0 (RFC 6241, 8.1). -/
def rfcBase10 : Text := "urn:ietf:params:netconf:base:1.0".toList

/-- The base capability of NETCONF 1.1 (RFC 6241, 8.1). -/
def rfcBase11 : Text := "urn:ietf:params:netconf:base:1.1".toList

/-- Names of the elements of a hello (RFC 6241, 8.1). -/
def nSessionId : Text := "session-id".toList

/-- See `nSessionId`. -/
def nCapabilities : Text := "capabilities".toList

/-- See `nSessionId`. -/
def nHello : Text := "hello".toList

/-- `v` is `u` surrounded by white space. -/
def Padded (u v : Text) : Prop :=
  ∃ a b : Text, (∀ c ∈ a, wsChar c = true) ∧ (∀ c ∈ b, wsChar c = true) ∧ v = a ++ u ++ b

/-- Some capability of the list is `u` up to surrounding white space. -/
def Advertises (es : List CapElem) (u : Text) : Prop := ∃ e ∈ es, Padded u e.value

/-- A syntactically proper capability list: only capability elements, none of them blank. -/
def ProperList (es : List CapElem) : Prop := ∀ e ∈ es, e.isCapability = true ∧ ∃ c ∈ e.value, wsChar c = false

/-- No capability is (up to white space) an incomplete beginning of a base capability. -/
def NoTruncatedBase (es : List CapElem) : Prop :=
  ∀ e ∈ es, ∀ t : Text, Padded t e.value → (t <+: rfcBase10 ∨ t <+: rfcBase11) → t = rfcBase10 ∨ t = rfcBase11 ∨ t = []

/-- Decimal value of digits. -/
def decVal (ds : Text) : Nat := ds.foldl (fun a c => a * 10 + (c.toNat - 48)) 0

/-- `t` is a decimal number `n`, optionally preceded by white space and a plus sign. -/
def Denotes (t : Text) (n : Nat) : Prop :=
  ∃ ws ds : Text, (∀ c ∈ ws, wsChar c = true) ∧ ds ≠ [] ∧ (∀ c ∈ ds, c.isDigit = true) ∧
    (t = ws ++ ds ∨ t = ws ++ '+' :: ds) ∧ decVal ds = n

/-- The children that matter: those in the base namespace. -/
def baseChildren (d : Doc) : List Child := d.children.filter (·.inBase)

/-- The session-id children of a document. -/
def sessionIds (d : Doc) : List Child := (baseChildren d).filter (fun c => decide (c.name = nSessionId))

/-- The capabilities children of a document. -/
def capLists (d : Doc) : List Child := (baseChildren d).filter (fun c => decide (c.name = nCapabilities))

/-- Everything in the base namespace is a session-id or a capability list. -/
def OnlyKnown (d : Doc) : Prop := ∀ c ∈ baseChildren d, c.name = nSessionId ∨ c.name = nCapabilities

/-- The URI of a capability. -/
def uri (t : Text) : Text := t.takeWhile (· != '?')

end Verif.Spec
