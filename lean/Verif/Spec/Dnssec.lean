import Verif.Model.Dnssec

/-! # Notions for the properties of host key fingerprints in DNS -/

namespace Verif.Dnssec

/-- Numbers of key algorithms in SSHFP records (RFC 4255, 3.1.1; RFC 6594). -/
def algNumber : KeyType → Option Nat
  | .rsa => some 1
  | .dss => some 2
  | .ecdsa => some 3
  | _ => none

/-- The reply is an answer to the question for the fingerprints of the host, from a validating resolver. -/
structure Answers (hostname : List Char) (r : Reply) : Prop where
  came : r.failed = false
  trusted : r.trusted = true
  parsed : r.parsed = true
  rcode : r.rcode = 0
  question : r.question = some (hostname, 44, 1)

/-- A record with the SHA-1 fingerprint of the key. -/
def Vouches (key : KeyType) (hash : List Byte) (rr : Rr) : Prop :=
  ∃ n, algNumber key = some n ∧ rr.type = 44 ∧ ∃ fp, rr.rdata = n :: 1 :: fp ∧ 20 ≤ fp.length ∧ fp.take 20 = hash

/-- A record for keys of that type with a SHA-1 fingerprint. -/
def SameKind (key : KeyType) (rr : Rr) : Prop := ∃ n, algNumber key = some n ∧ rr.type = 44 ∧ ∃ fp, rr.rdata = n :: 1 :: fp

/-- SSHFP records with SHA-1 fingerprints have 22 bytes, others at least two (RFC 4255, 3.1). -/
def WellFormed (rr : Rr) : Prop := rr.type = 44 → ∃ t a fp, rr.rdata = t :: a :: fp ∧ (a = 1 → fp.length = 20)

end Verif.Dnssec
