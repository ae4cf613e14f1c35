/-! # Characters the specifications talk about -/

namespace Verif.Spec

/-- White space of the C locale. -/
def wsChar (c : Char) : Bool := c == ' ' || c == '\t' || c == '\n' || c == '\x0b' || c == '\x0c' || c == '\r'

/-- The alphabet of Base64 (RFC 4648, table 1). -/
def b64Alphabet : List Char := "ABCDEFGHIJKLMNOPQRSTUVWXYZabcdefghijklmnopqrstuvwxyz0123456789+/".toList

/-- The lowest `n` bits of a number, the highest of them first. -/
def bits : Nat → Nat → List Nat
  | 0, _ => []
  | n + 1, x => bits n (x / 2) ++ [x % 2]

end Verif.Spec
