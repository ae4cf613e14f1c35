/-!
# Bytes and C strings

Shared vocabulary of the models: byte sequences, C strings, decimal printing and `strtoul`.
-/

namespace Verif

/- A byte (`char`, src/io.c:57-60).  Simplification: `Nat` instead of `UInt8`; every theorem over all `Nat` lists covers
in particular the lists of values below 256, and all witnesses use values below 256. -/
macro "Byte" : term => `(Nat)

/-- The part of a buffer visible through C string functions (`strcmp`, `strlen`, `strtoul`,
`ly_in_new_memory` in src/io.c:325, 337, 372): everything up to the first NUL. -/
def cstr (b : List Byte) : List Byte := b.takeWhile (· != 0)

/-- `isspace()` in the C locale, used by `strtoul` (src/io.c:337) and the trimming in
`parse_cpblts` (src/session.c:1287-1299). -/
def isSpace (b : Byte) : Bool := b == 32 || (9 ≤ b && b ≤ 13)

/-- `isdigit()`. (C17 7.4.1.5; used by `strtoul`, src/io.c:337) -/
def isDigit (b : Byte) : Bool := 48 ≤ b && b ≤ 57

/-- Decimal digits of a number, as printed by `PRIu32`/`PRIu64` (src/io.c:672, 887). -/
def dec (n : Nat) : List Byte :=
  if n < 10 then [48 + n] else dec (n / 10) ++ [48 + n % 10]
termination_by n
decreasing_by omega

/-- Unbounded value of the longest leading run of decimal digits (helper of `strtoul`). (src/io.c:337) -/
def digitsVal (acc : Nat) : List Byte → Nat
  | [] => acc
  | b :: bs => if isDigit b then digitsVal (acc * 10 + (b - 48)) bs else acc

/-- `strtoul(str, NULL, 10)` with a 64-bit `unsigned long` (C17 7.22.1.4), used in src/io.c:337:
leading white space, an optional sign, digits; saturation at `ULONG_MAX`; a minus sign negates
modulo 2^64. -/
def strtoul (b : List Byte) : Nat :=
  match (cstr b).dropWhile isSpace with
  | 45 :: ds => let v := digitsVal 0 ds
      if v ≥ 2 ^ 64 then 2 ^ 64 - 1 else (2 ^ 64 - v) % 2 ^ 64
  | 43 :: ds => min (digitsVal 0 ds) (2 ^ 64 - 1)
  | ds => min (digitsVal 0 ds) (2 ^ 64 - 1)

end Verif
