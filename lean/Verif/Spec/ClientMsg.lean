import Verif.Model.ClientMsg

/-!
# What the receiving functions of the client should do
-/

namespace Verif.ClientMsg.Spec
open Verif.Hello (Text)

/-- The text does not contain `p`. -/
def Free (p x : Text) : Prop := ∀ a b, x ≠ a ++ p ++ b

/-- What may stand before the root element of an XML document: white space, comments and a declaration; the texts of comments satisfy `ok`. -/
inductive Prolog (ok : Text → Prop) : Text → Prop
  | nil : Prolog ok []
  | space (c : Char) (p : Text) : c ∈ [' ', '\t', '\n', '\r'] → Prolog ok p → Prolog ok (c :: p)
  | comment (x p : Text) : Free "--".toList x → ok x → Prolog ok p → Prolog ok ("<!--".toList ++ x ++ "-->".toList ++ p)
  | decl (x p : Text) : Free "?>".toList x → Prolog ok p → Prolog ok ("<?xml".toList ++ x ++ "?>".toList ++ p)

/-- Comment texts that do not begin like the end of a comment. -/
def Plain (x : Text) : Prop := (∀ y, x ≠ '>' :: y) ∧ ∀ y, x ≠ '-' :: '>' :: y

/-- The document has a root element named `name` (as written, with any prefix) after a prolog. -/
def Root (ok : Text → Prop) (name t : Text) : Prop :=
  ∃ p rest, Prolog ok p ∧ (∃ c r, rest = c :: r ∧ c ∈ [' ', '\t', '\n', '\r', '/', '>']) ∧ t = p ++ '<' :: (name ++ rest)

/-- Names of XML elements: nonempty, without white space and markup. -/
def Name (n : Text) : Prop := n ≠ [] ∧ ∀ c ∈ n, c ∉ [' ', '\t', '\n', '\r', '/', '>', '<', '!', '?']

/-- The element of each type of message (RFC 6241 4.2, RFC 5277 4). -/
def element : Kind → Text
  | .reply => "rpc-reply".toList
  | .notif => "notification".toList

/-- What arrives at the client: silence, a failure of the transport, or a message of a known type. -/
inductive Arr | idle | failure | m (k : Kind) (t : Text)
  deriving DecidableEq, Repr

/-- How the reading function meets it. -/
def input : Arr → Input
  | .idle => .idle
  | .failure => .failure
  | .m _ t => .msg t

/-- Texts of the messages of one type, in order. -/
def texts (k : Kind) : List Arr → List Text
  | [] => []
  | .m k' t :: as => if k' = k then t :: texts k as else texts k as
  | _ :: as => texts k as

/-- Messages handed to the application by calls asking for one type, in order. -/
def delivered (k : Kind) : List Out → List Text
  | [] => []
  | .got k' (some t) :: os => if k' = k then t :: delivered k os else delivered k os
  | _ :: os => delivered k os

end Verif.ClientMsg.Spec
