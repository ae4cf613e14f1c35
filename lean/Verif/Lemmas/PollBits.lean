import Verif.Model.Poll
import Verif.Spec.Poll

/-! The values the model uses are those of the specification. -/

namespace Verif.Poll
open Verif.Spec

theorem bitTimeout_eq : bitTimeout = rTimeout := rfl
theorem bitRpc_eq : bitRpc = rRpc := rfl
theorem bitBadRpc_eq : bitBadRpc = rBadRpc := rfl
theorem bitReplyError_eq : bitReplyError = rReplyError := rfl
theorem bitTerm_eq : bitTerm = rTerm := rfl
theorem bitSessError_eq : bitSessError = rSessError := rfl
theorem bitError_eq : bitError = rError := rfl
theorem whyNone_eq : whyNone = tNone := rfl
theorem whyClosed_eq : whyClosed = tClosed := rfl
theorem whyKilled_eq : whyKilled = tKilled := rfl
theorem whyDropped_eq : whyDropped = tDropped := rfl
theorem whyTimeout_eq : whyTimeout = tTimeout := rfl
theorem whyOther_eq : whyOther = tOther := rfl

/-- Replace the values of the specification by those of the model. -/
macro "poll_bits" : tactic => `(tactic| simp only [bitTimeout_eq, bitRpc_eq, bitBadRpc_eq, bitReplyError_eq, bitTerm_eq, bitSessError_eq, bitError_eq,
  whyNone_eq, whyClosed_eq, whyKilled_eq, whyDropped_eq, whyTimeout_eq, whyOther_eq] at *)

end Verif.Poll
