/-!
# rpc-error objects (src/messages_server.c:131-724)

An rpc-error is a libyang opaque node; only its children matter here. `lyd_new_opaq2` appends a last child, `lyd_find_sibling_opaq_next` finds the
first child with a name, `lyd_free_tree` unlinks the child; memory allocation does not fail.
-/

namespace Verif.NcErr

/-- NC_ERR (src/messages_server.h:42-63); `other` is any value that is none of the constants. -/
inductive Tag where
  | unknown | inUse | invalidValue | tooBig | missingAttr | badAttr | unknownAttr | missingElem | badElem | unknownElem | unknownNs
  | accessDenied | lockDenied | resDenied | rollbackFailed | dataExists | dataMissing | opNotSupported | opFailed | malformedMsg | other
  deriving DecidableEq, Repr

/-- NC_ERR_TYPE (src/messages_server.h:68-74); `other` is any value that is none of the constants. -/
inductive Ty where
  | unknown | tran | rpc | prot | app | other
  deriving DecidableEq, Repr

/-- Element names of the children (src/messages_server.c:342-357, 515, 550, 592, 628). -/
inductive Kind where
  | typ | tag | severity | appTag | path | message | info
  deriving DecidableEq, Repr

/-- Element names inside error-info (src/messages_server.c:639, 658, 678, 698); `other` is any node of the application (719). -/
inductive InfoKind where
  | sessionId | badAttribute | badElement | badNamespace | other
  deriving DecidableEq, Repr

/-- A child (src/messages_server.c:342, 592-595): name, value, xml:lang attribute, own children. -/
structure Child where
  kind : Kind
  value : Option String
  lang : Option String := none
  sub : List (InfoKind × String) := []
  deriving DecidableEq, Repr

/-- The children of an rpc-error (src/messages_server.c:272). -/
abbrev Err := List Child

/-- `nc_err_tag2str` (src/messages_server.c:131-178). -/
def tag2str : Tag → Option String
  | .inUse => some "in-use"
  | .invalidValue => some "invalid-value"
  | .accessDenied => some "access-denied"
  | .rollbackFailed => some "rollback-failed"
  | .opNotSupported => some "operation-not-supported"
  | .tooBig => some "too-big"
  | .resDenied => some "resource-denied"
  | .missingAttr => some "missing-attribute"
  | .badAttr => some "bad-attribute"
  | .unknownAttr => some "unknown-attribute"
  | .missingElem => some "missing-element"
  | .badElem => some "bad-element"
  | .unknownElem => some "unknown-element"
  | .unknownNs => some "unknown-namespace"
  | .lockDenied => some "lock-denied"
  | .dataExists => some "data-exists"
  | .dataMissing => some "data-missing"
  | .opFailed => some "operation-failed"
  | .malformedMsg => some "malformed-message"
  | .unknown => none
  | .other => none

/-- `nc_err_str2tag` (src/messages_server.c:180-224). -/
def str2tag (s : String) : Tag :=
  if s = "in-use" then .inUse
  else if s = "invalid-value" then .invalidValue
  else if s = "access-denied" then .accessDenied
  else if s = "rollback-failed" then .rollbackFailed
  else if s = "operation-not-supported" then .opNotSupported
  else if s = "too-big" then .tooBig
  else if s = "resource-denied" then .resDenied
  else if s = "missing-attribute" then .missingAttr
  else if s = "bad-attribute" then .badAttr
  else if s = "unknown-attribute" then .unknownAttr
  else if s = "missing-element" then .missingElem
  else if s = "bad-element" then .badElem
  else if s = "unknown-element" then .unknownElem
  else if s = "unknown-namespace" then .unknownNs
  else if s = "lock-denied" then .lockDenied
  else if s = "data-exists" then .dataExists
  else if s = "data-missing" then .dataMissing
  else if s = "operation-failed" then .opFailed
  else if s = "malformed-message" then .malformedMsg
  else .unknown

/-- `nc_err_type2str` (src/messages_server.c:226-243). -/
def type2str : Ty → Option String
  | .tran => some "transport"
  | .rpc => some "rpc"
  | .prot => some "protocol"
  | .app => some "application"
  | .unknown => none
  | .other => none

/-- `nc_err_str2type` (src/messages_server.c:245-259). -/
def str2type (s : String) : Ty :=
  if s = "transport" then .tran
  else if s = "rpc" then .rpc
  else if s = "protocol" then .prot
  else if s = "application" then .app
  else .unknown

/-- The error-type for a tag and the type argument (src/messages_server.c:281-341); `none` is a refused argument. -/
def errType (tag : Tag) (arg : Ty) : Option Ty :=
  match tag with
  | .inUse | .invalidValue | .accessDenied | .rollbackFailed | .opNotSupported => if arg ≠ .prot ∧ arg ≠ .app then none else some arg
  | .tooBig | .resDenied => some arg
  | .missingAttr | .badAttr | .unknownAttr => if arg = .tran then none else some arg
  | .missingElem | .badElem | .unknownElem => if arg ≠ .prot ∧ arg ≠ .app then none else some arg
  | .unknownNs => if arg ≠ .prot ∧ arg ≠ .app then none else some arg
  | .lockDenied => some .prot
  | .dataExists | .dataMissing => some .app
  | .opFailed => if arg = .tran then none else some arg
  | .malformedMsg => some .rpc
  | .unknown | .other => none

/-- Default messages (src/messages_server.c:357-418). -/
def defaultMsg : Tag → String
  | .inUse => "The request requires a resource that already is in use."
  | .invalidValue => "The request specifies an unacceptable value for one or more parameters."
  | .tooBig => "The request or response (that would be generated) is too large for the implementation to handle."
  | .missingAttr => "An expected attribute is missing."
  | .badAttr => "An attribute value is not correct."
  | .unknownAttr => "An unexpected attribute is present."
  | .missingElem => "An expected element is missing."
  | .badElem => "An element value is not correct."
  | .unknownElem => "An unexpected element is present."
  | .unknownNs => "An unexpected namespace is present."
  | .accessDenied => "Access to the requested protocol operation or data model is denied because authorization failed."
  | .lockDenied => "Access to the requested lock is denied because the lock is currently held by another entity."
  | .resDenied => "Request could not be completed because of insufficient resources."
  | .rollbackFailed => "Request to roll back some configuration change was not completed for some reason."
  | .dataExists => "Request could not be completed because the relevant data model content already exists."
  | .dataMissing => "Request could not be completed because the relevant data model content does not exist."
  | .opNotSupported => "Request could not be completed because the requested operation is not supported by this implementation."
  | .opFailed => "Request could not be completed because the requested operation failed for a non-specific reason."
  | .malformedMsg => "A message could not be handled because it failed to be parsed correctly."
  | .unknown => ""
  | .other => ""

/-- `lyd_find_sibling_opaq_next` on the children (src/messages_server.c:483). -/
def find (e : Err) (k : Kind) : Option Child := e.find? (fun c => c.kind == k)

/-- Removing the first child of a name and appending a new one (src/messages_server.c:513-521, 548-556). -/
def replaceLast (e : Err) (k : Kind) (v : String) : Err := e.eraseP (fun c => c.kind == k) ++ [{ kind := k, value := some v }]

/-- `nc_err_set_app_tag` (src/messages_server.c:506-524). -/
def setAppTag (e : Err) (v : String) : Err := replaceLast e .appTag v

/-- `nc_err_set_path` (src/messages_server.c:541-559). -/
def setPath (e : Err) (v : String) : Err := replaceLast e .path v

/-- Changing the first child with a name (src/messages_server.c:584-590). -/
def modifyFirst (k : Kind) (f : Child → Child) : Err → Err
  | [] => []
  | c :: e => if c.kind = k then f c :: e else c :: modifyFirst k f e

/-- `nc_err_set_msg` (src/messages_server.c:576-600). -/
def setMsg (e : Err) (v : String) (lang : Option String) : Err :=
  match find e .message with
  | some _ => modifyFirst .message (fun c => { c with value := some v }) e
  | none => e ++ [{ kind := .message, value := some v, lang := lang }]

/-- Finding or creating error-info (src/messages_server.c:625-630, 652-656, 672-676, 692-696). -/
def withInfo (e : Err) : Err :=
  match find e .info with
  | some _ => e
  | none => e ++ [{ kind := .info, value := none }]

/-- `nc_err_set_sid` (src/messages_server.c:617-643). -/
def setSid (e : Err) (sid : Nat) : Err :=
  modifyFirst .info (fun c => { c with sub := c.sub.eraseP (fun x => x.1 == .sessionId) ++ [(.sessionId, toString sid)] }) (withInfo e)

/-- `nc_err_add_bad_attr`, `nc_err_add_bad_elem`, `nc_err_add_bad_ns` (src/messages_server.c:645-703); a NULL name is an error and changes nothing. -/
def addInfo (e : Err) (k : InfoKind) (v : Option String) : Err :=
  match v with
  | none => e
  | some v => modifyFirst .info (fun c => { c with sub := c.sub ++ [(k, v)] }) (withInfo e)

/-- `nc_err_add_info_other` (src/messages_server.c:705-722); `lyd_insert_child` appends to an opaque parent. The inserted tree is its text here. -/
def addOther (e : Err) (v : String) : Err :=
  modifyFirst .info (fun c => { c with sub := c.sub ++ [(.other, v)] }) (withInfo e)

/-- The error-info part of `nc_err` (src/messages_server.c:420-465). -/
def defaultInfo (e : Err) (tag : Tag) (arg1 arg2 : Option String) (sid : Nat) : Err :=
  match tag with
  | .missingAttr | .badAttr | .unknownAttr => addInfo (addInfo e .badAttribute arg1) .badElement arg2
  | .missingElem | .badElem | .unknownElem => addInfo e .badElement arg1
  | .unknownNs => addInfo (addInfo e .badElement arg1) .badNamespace arg2
  | .lockDenied => setSid e sid
  | _ => e

/-- `nc_err` (src/messages_server.c:261-474) with its variable arguments. -/
def ncErr (tag : Tag) (ty : Ty) (arg1 arg2 : Option String) (sid : Nat) : Option Err :=
  match errType tag ty with
  | none => none
  | some t =>
    let e : Err := [{ kind := .typ, value := type2str t }, { kind := .tag, value := tag2str tag }, { kind := .severity, value := some "error" }]
    some (defaultInfo (setMsg e (defaultMsg tag) (some "en")) tag arg1 arg2 sid)

/-- The value of a child; libyang stores an empty string for NULL (src/messages_server.c:484). -/
def value (e : Err) (k : Kind) : Option String := (find e k).map (fun c => c.value.getD "")

/-- `nc_err_get_type` (src/messages_server.c:476-489). -/
def getType (e : Err) : Ty := match value e .typ with | none => .unknown | some s => str2type s

/-- `nc_err_get_tag` (src/messages_server.c:491-504). -/
def getTag (e : Err) : Tag := match value e .tag with | none => .unknown | some s => str2tag s

/-- `nc_err_get_app_tag` (src/messages_server.c:526-539). -/
def getAppTag (e : Err) : Option String := value e .appTag

/-- `nc_err_get_path` (src/messages_server.c:561-574). -/
def getPath (e : Err) : Option String := value e .path

/-- `nc_err_get_msg` (src/messages_server.c:602-615). -/
def getMsg (e : Err) : Option String := value e .message

end Verif.NcErr
