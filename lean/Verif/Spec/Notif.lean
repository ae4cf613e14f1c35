import Verif.Model.Notif
import Verif.Spec.ClientMsg

/-!
# What is expected of notifications
-/

namespace Verif.Notif.Spec
open Verif.Hello (Text)
open Verif.Notif

/-- A notification message (RFC 5277 4) with a time and an event, both as written. -/
def message (time event : Text) : Text :=
  c!"<notification xmlns=\"urn:ietf:params:xml:ns:netconf:notification:1.0\"><eventTime>" ++ time ++ c!"</eventTime>" ++ event ++
    c!"</notification>"

/-- The rest of a text after a given beginning. -/
def after : Text → Text → Option Text
  | [], t => some t
  | _ :: _, [] => none
  | a :: p, b :: t => if a = b then after p t else none

/-- How a receiver reads the message: the text of `eventTime`, which ends with the next markup, and what follows the element. A text with references is not
of interest here. -/
def readTime (t : Text) : Option (Text × Text) :=
  match after c!"<notification xmlns=\"urn:ietf:params:xml:ns:netconf:notification:1.0\"><eventTime>" t with
  | none => none
  | some r =>
    if (r.takeWhile (· ≠ '<')).contains '&' then none
    else (after c!"</eventTime>" (r.dropWhile (· ≠ '<'))).map (fun e => (r.takeWhile (· ≠ '<'), e))

/-- The notification `notificationComplete` of the module `nc-notifications` (RFC 5277 3.3). -/
def IsEnd (g : Got) : Prop := g.name = c!"notificationComplete" ∧ g.modName = c!"nc-notifications"

instance (g : Got) : Decidable (IsEnd g) := inferInstanceAs (Decidable (_ ∧ _))

/-- The notifications of a list through the one that ends the subscription. -/
def through : List Got → List Got
  | [] => []
  | g :: gs => if IsEnd g then [g] else g :: through gs

/-- No two dispatch calls are under way at the same time. -/
def Serial (as : List Act) : Prop :=
  ∀ p q s, as = p ++ .dispatch :: q → run p Sys.init = .ok s → ∀ x ∈ s.pcs, x ∉ [Pc.called, .flagged, .refused, .resetting]

end Verif.Notif.Spec
