import Verif.Lemmas.RpcCb
import Verif.Model.ServerRpc

/-!
# Properties: which callback deals with a request
-/

namespace Verif.Props
open Verif.RpcCb

/-- **C251.** Full statement (false, see `handler_false`): a request of a session is given to the callback set for its operation; if there is none to the global
one, and if there is none either, to the default one. -/
def HandlerAsSet : Prop :=
  ∀ (h : List Event) (c : Nat) (op : RpcCb.Op), used c h.reverse = true → hasOp c op h.reverse = true → handler (RpcCb.run h) c op = expected h.reverse c op

/-- **C251.** Proved for operations with a callback of the application, for operations without default callback, and for all others if neither the global
callback was changed nor a callback of the operation taken away while there were sessions in the context. -/
theorem handler_partial (h : List Event) (c : Nat) (op : RpcCb.Op) (hu : used c h.reverse = true) (hh : hasOp c op h.reverse = true)
    (hp : ownOf c op h.reverse ≠ none ∨ dflt op = none ∨ Settled c op h.reverse) : handler (RpcCb.run h) c op = expected h.reverse c op := by
  rw [run_past, handler, expected, past_glob]
  cases ho : ownOf c op h.reverse with
  | some f =>
    rcases past_priv h.reverse c op with h1 | ⟨h1, -⟩
    · rw [h1, ho]; rfl
    · rw [ho] at h1; cases h1
  | none =>
    rcases hp with h1 | h1 | h1
    · exact absurd ho h1
    · have h2 : ((past h.reverse).ctxs c).priv op = none := by
        rcases past_priv h.reverse c op with h2 | ⟨-, h2, -⟩
        · rw [h2, ho]; rfl
        · rw [h2, h1]
      rw [h2, h1]
      cases globOf h.reverse <;> rfl
    · rw [past_settled h.reverse c op h1 hu hh ho]
      cases globOf h.reverse with
      | none => cases dflt op <;> rfl
      | some g => rfl

/-- **C251.** Whatever is changed and when: a request is never given to a callback that is neither the one set for its operation, the global one nor its default
one, and never to another one while one is set for the operation. -/
theorem handler_known (h : List Event) (c : Nat) (op : RpcCb.Op) (f : Cb) (hf : handler (RpcCb.run h) c op = some f) :
    (∃ n, f = .app n ∧ (ownOf c op h.reverse = some n ∨ (ownOf c op h.reverse = none ∧ globOf h.reverse = some n))) ∨
      (ownOf c op h.reverse = none ∧ dflt op = some f ∧ used c h.reverse = true) := by
  rw [run_past, handler, past_glob] at hf
  rcases past_priv h.reverse c op with h1 | ⟨h1, h2, h3⟩
  · rw [h1] at hf
    cases ho : ownOf c op h.reverse with
    | some n => rw [ho] at hf; cases hf; exact .inl ⟨n, rfl, .inl rfl⟩
    | none =>
      rw [ho] at hf
      simp only [Option.map_none, Option.map_eq_some_iff] at hf
      obtain ⟨n, hg, rfl⟩ := hf
      exact .inl ⟨n, rfl, .inr ⟨rfl, hg⟩⟩
  · rw [h2] at hf
    cases hd : dflt op with
    | some g => rw [hd] at hf; cases hf; exact .inr ⟨h1, rfl, h3⟩
    | none =>
      rw [hd] at hf
      simp only [Option.map_eq_some_iff] at hf
      obtain ⟨n, hg, rfl⟩ := hf
      exact .inl ⟨n, rfl, .inr ⟨h1, hg⟩⟩

/-- **C251.** That callback is called, once, with the operation (`ServerRpc.callOp` is the part of `nc_server_send_reply_io` that calls it; callbacks are
numbered); without one nothing is called. -/
theorem handler_called (s : State) (c : Nat) (op : RpcCb.Op) (num : Cb → Nat) (srv : ServerRpc.Srv) (hs : srv.glob = s.glob.map (fun n => num (.app n)))
    (q : ServerRpc.Sess) (o : ServerRpc.Op) (n : ServerRpc.SNode) (hn : n.priv = ((s.ctxs c).priv op).map num) :
    (ServerRpc.callOp srv q o n).2.calls = q.calls ++ (handler s c op).toList.map (fun f => (num f, o)) := by
  rw [handler, ServerRpc.callOp, hn, hs]
  cases (s.ctxs c).priv op with
  | some f => rfl
  | none => cases s.glob <;> simp

/-- A context with both operations, a callback for `<get-schema>`, a session. -/
example : let s := RpcCb.run [.fresh 0 true true, .own 0 .getSchema (some 7), .session 0]
    handler s 0 .getSchema = some (.app 7) ∧ handler s 0 .closeSession = some .closeSession ∧ handler s 0 (.other 3) = none := by decide +kernel

/-- With a global callback that is set before the session there are no default ones. -/
example : let s := RpcCb.run [.fresh 0 true true, .global (some 5), .session 0]
    handler s 0 .getSchema = some (.app 5) ∧ handler s 0 .closeSession = some (.app 5) := by decide +kernel

example : Settled 0 .getSchema [.session 0, .global (some 5), .fresh 0 true true] := ⟨rfl, trivial⟩

/-- **C251, false in general.** A global callback that is set after a session was accepted does not get `<get-schema>` and `<close-session>`: the default callbacks
stay in the context, contrary to the documentation of `nc_set_global_rpc_clb`. -/
theorem handler_false : ¬ HandlerAsSet := by
  intro h
  have := h [.fresh 0 true true, .session 0, .global (some 5)] 0 .getSchema rfl rfl
  revert this
  decide +kernel

/-- If the global callback is removed while there are sessions, they cannot be closed with `<close-session>` until another one is accepted. -/
example : handler (RpcCb.run [.fresh 0 true true, .global (some 5), .session 0, .global none]) 0 .closeSession = none ∧
    handler (RpcCb.run [.fresh 0 true true, .global (some 5), .session 0, .global none, .session 0]) 0 .closeSession = some .closeSession := by decide +kernel

end Verif.Props
