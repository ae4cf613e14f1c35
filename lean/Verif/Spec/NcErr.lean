import Verif.Model.NcErr

namespace Verif.Spec

open Verif.NcErr

/-- The error-types that RFC 6241, appendix A lists for an error-tag. -/
def rfcTypes : Tag → List Ty
  | .inUse => [.prot, .app]
  | .invalidValue => [.prot, .app]
  | .tooBig => [.tran, .rpc, .prot, .app]
  | .missingAttr => [.rpc, .prot, .app]
  | .badAttr => [.rpc, .prot, .app]
  | .unknownAttr => [.rpc, .prot, .app]
  | .missingElem => [.prot, .app]
  | .badElem => [.prot, .app]
  | .unknownElem => [.prot, .app]
  | .unknownNs => [.prot, .app]
  | .accessDenied => [.prot, .app]
  | .lockDenied => [.prot]
  | .resDenied => [.tran, .rpc, .prot, .app]
  | .rollbackFailed => [.prot, .app]
  | .dataExists => [.app]
  | .dataMissing => [.app]
  | .opNotSupported => [.prot, .app]
  | .opFailed => [.rpc, .prot, .app]
  | .malformedMsg => [.rpc]
  | .unknown => []
  | .other => []

/-- The tags whose constructor takes no type argument. -/
def noTypeArg (t : Tag) : Bool := t == .lockDenied || t == .dataExists || t == .dataMissing || t == .malformedMsg

/-- Calls that change an rpc-error. -/
inductive ErrCall where
  | appTag (v : String)
  | path (v : String)
  | msg (v : String) (lang : Option String)
  | sid (n : Nat)
  | badAttr (v : String)
  | badElem (v : String)
  | badNs (v : String)
  | other (v : String)
  deriving DecidableEq, Repr

def applyCall (e : Err) : ErrCall → Err
  | .appTag v => setAppTag e v
  | .path v => setPath e v
  | .msg v l => setMsg e v l
  | .sid n => setSid e n
  | .badAttr v => addInfo e .badAttribute (some v)
  | .badElem v => addInfo e .badElement (some v)
  | .badNs v => addInfo e .badNamespace (some v)
  | .other v => addOther e v

def applyCalls (e : Err) (cs : List ErrCall) : Err := cs.foldl applyCall e

/-- The last value a history assigns, or the earlier one. -/
def lastOf (f : ErrCall → Option String) (cs : List ErrCall) (d : Option String) : Option String := (cs.filterMap f).getLast?.or d

def asAppTag : ErrCall → Option String
  | .appTag v => some v
  | _ => none

def asPath : ErrCall → Option String
  | .path v => some v
  | _ => none

def asMsg : ErrCall → Option String
  | .msg v _ => some v
  | _ => none

/-- What a call contributes to error-info. -/
def asInfo : ErrCall → Option (InfoKind × String)
  | .sid n => some (.sessionId, toString n)
  | .badAttr v => some (.badAttribute, v)
  | .badElem v => some (.badElement, v)
  | .badNs v => some (.badNamespace, v)
  | .other v => some (.other, v)
  | _ => none

/-- Of several session-ids only the last one remains; everything else remains in its order. -/
def lastSid : List (InfoKind × String) → List (InfoKind × String)
  | [] => []
  | x :: l => if x.1 = .sessionId ∧ l.any (fun y => y.1 == .sessionId) then lastSid l else x :: lastSid l

/-- The descriptions of the errors (RFC 6241, appendix A), without the examples. -/
def rfcMsg : Tag → String
  | .inUse => "The request requires a resource that already is in use."
  | .invalidValue => "The request specifies an unacceptable value for one or more parameters."
  | .tooBig => "The request or response (that would be generated) is too large for the implementation to handle."
  | .missingAttr => "An expected attribute is missing."
  | .badAttr => "An attribute value is not correct."
  | .unknownAttr => "An unexpected attribute is present."
  | .missingElem => "An expected element is missing."
  | .badElem => "An element value is not correct."
  | .unknownElem => "An unexpected element is present."
  | .unknownNs => "An unexpected namespace is present."
  | .accessDenied => "Access to the requested protocol operation or data model is denied because authorization failed."
  | .lockDenied => "Access to the requested lock is denied because the lock is currently held by another entity."
  | .resDenied => "Request could not be completed because of insufficient resources."
  | .rollbackFailed => "Request to roll back some configuration change was not completed for some reason."
  | .dataExists => "Request could not be completed because the relevant data model content already exists."
  | .dataMissing => "Request could not be completed because the relevant data model content does not exist."
  | .opNotSupported => "Request could not be completed because the requested operation is not supported by this implementation."
  | .opFailed => "Request could not be completed because the requested operation failed for a non-specific reason."
  | .malformedMsg => "A message could not be handled because it failed to be parsed correctly."
  | .unknown => ""
  | .other => ""

/-- The content of error-info. -/
def infoOf (e : Err) : List (InfoKind × String) := ((find e .info).map (·.sub)).getD []

end Verif.Spec
