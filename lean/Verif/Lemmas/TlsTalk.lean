import Verif.Spec.TlsTalk
import Verif.Lemmas.ClientTls

/-!
# Lemmas about a client and a server of this library authenticating over TLS
-/

namespace Verif.TlsTalk
open Verif.TransCfg (Lib)
open Verif.TlsLogin (Out)
open Verif.TlsAuth (Text Sess)

theorem ready_some {s : Server} {lib : Lib} {w : World} {c k : Nat} (h : s.ready lib w = some (some (c, k))) :
    ∃ y, ServerId.loadServer s.idVals s.ks s.own.tls.id = .shown y k ∧ y.id = c ∧ ∃ p, TlsLogin.prepare s.vals s.ts s.own s.ref s.up = some (some p) := by
  unfold Server.ready at h
  cases h1 : ServerId.loadServer s.idVals s.ks s.own.tls.id with
  | ub => rw [h1] at h; cases h
  | refused => rw [h1] at h; cases h
  | shown y k' =>
    rw [h1] at h
    simp only at h
    cases h2 : TlsLogin.prepare s.vals s.ts s.own s.ref s.up with
    | none => rw [h2] at h; cases h
    | some p =>
      cases p with
      | none => rw [h2] at h; cases h
      | some p =>
        rw [h2] at h
        simp only at h
        split at h
        · simp only [Option.some.injEq, Prod.mk.injEq] at h
          obtain ⟨rfl, rfl⟩ := h
          exact ⟨y, rfl, rfl, p, rfl⟩
        · cases h

/-- What is behind a session of the client, and one of the server. -/
theorem layer_cases {cl sl : Lib} {v13 : Bool} {w : World} {x : ClientTls.Ext} {d : ClientTls.Disk} {o : ClientTls.Opts} {way : Way} {s : Server}
    {a : Option ClientTls.Sess} {b : Out} (h : layer cl sl v13 w x d o way s = .ok (a, b)) :
    (a = none ∧ (b = .refused ∨ b = .ub)) ∨
    ∃ c, way.client cl x d o (s.peer sl w) = .ok (some c) ∧
      ((∃ t, a = some c ∧ b = .session t ∧ c.key = c.cert.id ∧ s.verify sl w (c.cert.id :: w.clientMore c.cert.id) = .session t) ∨
       (a = (if v13 then some c else none) ∧ (b = .refused ∨ b = .ub))) := by
  unfold layer at h
  cases h1 : way.client cl x d o (s.peer sl w) with
  | error f => rw [h1] at h; cases h
  | ok r =>
    rw [h1] at h
    cases r with
    | none =>
      simp only [Except.ok.injEq, Prod.mk.injEq] at h
      obtain ⟨rfl, rfl⟩ := h
      refine .inl ⟨rfl, ?_⟩
      split
      · exact .inr rfl
      · exact .inl rfl
    | some c =>
      refine .inr ⟨c, rfl, ?_⟩
      simp only at h
      split at h
      · rename_i t ht
        simp only [Except.ok.injEq, Prod.mk.injEq] at h
        obtain ⟨rfl, rfl⟩ := h
        split at ht
        · rename_i hk
          exact .inl ⟨t, rfl, rfl, hk, ht⟩
        · cases ht
      · simp only [Except.ok.injEq, Prod.mk.injEq] at h
        obtain ⟨rfl, rfl⟩ := h
        exact .inr ⟨rfl, .inl rfl⟩
      · simp only [Except.ok.injEq, Prod.mk.injEq] at h
        obtain ⟨rfl, rfl⟩ := h
        exact .inr ⟨rfl, .inr rfl⟩

/-- A session of one side after all. -/
theorem connect_cases {cl sl : Lib} {v13 : Bool} {w : World} {x : ClientTls.Ext} {d : ClientTls.Disk} {o : ClientTls.Opts} {way : Way} {s : Server}
    {hello : Bool × Bool} {a : Option ClientTls.Sess} {b : Option Sess} (h : connect cl sl v13 w x d o way s hello = .ok (a, b)) (hab : a.isSome = true ∨ b.isSome = true) :
    ∃ c t, layer cl sl v13 w x d o way s = .ok (some c, .session t) ∧ (∀ c', a = some c' → c' = c) ∧ ∀ t', b = some t' → t' = t := by
  unfold connect at h
  split at h
  · cases h
  · rename_i c t hl
    simp only [Except.ok.injEq, Prod.mk.injEq] at h
    obtain ⟨rfl, rfl⟩ := h
    refine ⟨c, t, hl, ?_, ?_⟩
    · intro c' hc
      split at hc
      · cases hc; rfl
      · cases hc
    · intro t' ht
      split at ht
      · cases ht; rfl
      · cases ht
  · cases h
    rcases hab with h | h <;> cases h

end Verif.TlsTalk
