import Verif.Model.Bytes

/-!
# Host key fingerprints in DNS (src/session_client_ssh.c:231-322, 372-403, 499-556, with ENABLE_DNSSEC)

The resolver and the parser of DNS messages are parameters: a `Reply` is what they report.
-/

namespace Verif.Dnssec

/-- A resource record: its type and its data (src/session_client_ssh.c:277-284). -/
structure Rr where
  type : Nat
  rdata : List Byte
  deriving DecidableEq, Repr

/-- The outcome of a query (src/session_client_ssh.c:245-274): it may fail, be untrusted, or not be parsed; then the response code, the AD flag, the
question (name, type, class) if it can be parsed, and the records of the answer. -/
structure Reply where
  failed : Bool
  trusted : Bool
  parsed : Bool
  rcode : Nat
  ad : Bool
  question : Option (List Char × Nat × Nat)
  answers : List Rr
  deriving DecidableEq, Repr

/-- Outcome: undefined behaviour (data are read that are not there) or a value (src/session_client_ssh.c:284-301). -/
inductive Res (α : Type) where
  | ub
  | ok (a : α)
  deriving DecidableEq, Repr

/-- The loop comparing the fingerprints (src/session_client_ssh.c:296-301): `n` bytes are left; are they equal. -/
def compare : (n : Nat) → List Byte → List Byte → Res Bool
  | 0, _, _ => .ok true
  | n + 1, a :: r, b :: h => if a ≠ b then .ok false else compare n r h
  | _ + 1, _, _ => .ub

/-- The loop over the answer (src/session_client_ssh.c:277-312): `ret` is 0 or 1 before it. -/
def answerLoop (hash : List Byte) (type alg ret : Nat) : List Rr → Res Nat
  | [] => .ok 2
  | rr :: rrs =>
    if rr.type ≠ 44 then answerLoop hash type alg ret rrs
    else
      match rr.rdata with
      | [] => .ub
      | t :: d =>
        if t ≠ type then answerLoop hash type alg ret rrs
        else
          match d with
          | [] => .ub
          | a :: fp =>
            if a ≠ alg then answerLoop hash type alg ret rrs
            else
              match compare 20 fp hash with
              | .ub => .ub
              | .ok true => .ok ret
              | .ok false => .ok 2

/-- `sshauth_hostkey_hash_dnssec_check` (src/session_client_ssh.c:233-322). -/
def check (hostname : List Char) (r : Reply) (hash : List Byte) (type alg : Nat) : Res Nat :=
  if r.failed ∨ r.trusted = false then .ok 2
  else if r.parsed = false then .ok 2
  else if r.rcode ≠ 0 then .ok 2
  else
    match r.question with
    | none => .ok 2
    | some (name, qtype, qclass) =>
      if name ≠ hostname ∨ qtype ≠ 44 ∨ qclass ≠ 1 then .ok 2
      else answerLoop hash type alg (if r.ad then 0 else 1) r.answers

/-- Types of host keys (src/session_client_ssh.c:378-386), `other` are all that libssh knows besides. -/
inductive KeyType where
  | unknown
  | rsa1
  | dss
  | rsa
  | ecdsa
  | other
  deriving DecidableEq, Repr

/-- The branches by key type (src/session_client_ssh.c:378-388, 400). -/
def byType (key : KeyType) (hostname : List Char) (r : Reply) (hash : List Byte) : Res Nat :=
  match key with
  | .unknown => .ok 1
  | .rsa1 => .ok 1
  | .dss => check hostname r hash 2 1
  | .rsa => check hostname r hash 1 1
  | .ecdsa => check hostname r hash 3 1
  | .other => .ok 1

/-- `nc_client_ssh_do_dnssec_sshfp_check` (src/session_client_ssh.c:373-401): the result, and is the key added to the known hosts. -/
def sshfpCheck (key : KeyType) (hostname : List Char) (r : Reply) (hash : List Byte) : Res (Nat × Bool) :=
  match byType key hostname r hash with
  | .ub => .ub
  | .ok n => .ok (n, n = 0)

/-- What the user is told (src/session_client_ssh.c:545-555). -/
inductive Told where
  | noMatch
  | matching
  | nothing
  deriving DecidableEq, Repr

/-- For a key that is not in the known hosts (src/session_client_ssh.c:499-556): accepted at once (`none`), or otherwise what the user is told, if
asked. -/
def newKey (key : KeyType) (hostname : List Char) (r : Reply) (hash : List Byte) : Res (Option Told) :=
  match sshfpCheck key hostname r hash with
  | .ub => .ub
  | .ok (0, _) => .ok none
  | .ok (1, _) => .ok (some .matching)
  | .ok (2, _) => .ok (some .noMatch)
  | .ok (_, _) => .ok (some .nothing)

end Verif.Dnssec
