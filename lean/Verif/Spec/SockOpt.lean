import Verif.Model.SockOpt
import Verif.Spec.ConfEndpt

/-!
# What is expected of the sockets of sessions
-/

namespace Verif.SockOpt
open Verif.ConfEndpt (Ka Srv Endpt)

/-- Keepalives are sent after an idle time, so many, at an interval. -/
def Alive (o : Opts) (idle cnt intvl : Nat) : Prop := o.alive = true ∧ o.idle = idle ∧ o.cnt = cnt ∧ o.intvl = intvl

/-- Keepalives are sent as the settings say. -/
def KeepsAlive (k : Ka) (o : Opts) : Prop := (k.enabled = true → Alive o k.idle k.probes k.interval) ∧ (k.enabled = false → o.alive = false)

/-- The operating system sets keepalives as the settings say; on Linux it does not set more than 32767 seconds or 127 probes. -/
def Settable (k : Ka) (a : KaAns) : Prop := a.alive = true ∧ (k.enabled = true → a.idle = true ∧ a.cnt = true ∧ a.intvl = true)

/-- The number of the listening socket of an endpoint, -1 if there is none. -/
def fdOf (e : Endpt) : Int :=
  match e.sock with
  | some f => f
  | none => -1

/-- The binds of a server: one for each endpoint. -/
def BindsOf (s : Srv) (bs : List Accept.Bind) : Prop := bs.map Accept.Bind.sock = s.endpts.map fdOf

/-- The listening sockets were opened with `nc_sock_listen_inet`. -/
def Listening (lst : Int → Opts) : Prop := ∀ f, ∃ new a, listenInet new a = some (lst f)

end Verif.SockOpt
