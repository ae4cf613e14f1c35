import Verif.Lemmas.TlsAuth

namespace Verif.TlsAuth

/-- What a successful check of a certificate does. -/
theorem verifyCert_ok {lib : Lib} {o : Endpt} {userOk : Text → Bool} {chain : List Cert} {s s' : Sess} {cert : Cert} {depth : Nat} {names trusted : Bool}
    (h : verifyCert lib o userOk chain s cert depth names trusted = (s', .ok)) :
    (s' = s ∧ (s.username.isSome ∨ depth > 0)) ∨
    (s.username = none ∧ depth = 0 ∧ (trusted = true ∨ Configured o cert) ∧ ∃ u, endptName o chain = .name u ∧ userOk u = true ∧ s' = { s with username := some u }) := by
  unfold verifyCert at h
  split at h
  · rename_i hs
    cases h
    exact .inl ⟨rfl, .inl hs⟩
  · rename_i hs
    split at h
    · cases h
    · split at h
      · rename_i hd
        split at h
        · rename_i hv
          split at h
          · cases h
          · cases h
          · cases h
          · rename_i u hu
            split at h
            · rename_i hk
              cases h
              refine .inr ⟨by simpa using hs, hd, ?_, u, hu, hk, rfl⟩
              cases trusted with
              | true => exact .inl rfl
              | false => exact .inr (verifyPeer_ok (by simpa using hv))
            · cases h
        · rename_i hv
          simp only [Prod.mk.injEq] at h
          exact absurd h.2 (by simpa using hv)
      · rename_i hd
        cases h
        exact .inl ⟨rfl, .inr (by omega)⟩

/-- A check that succeeds when the pieces are there. -/
theorem verifyCert_accepts {lib : Lib} {o : Endpt} {userOk : Text → Bool} {chain : List Cert} {s : Sess} {cert : Cert} {depth : Nat} {trusted : Bool} {u : Text}
    (hs : s.username = none ∨ s.username = some u) (hu : endptName o chain = .name u) (hk : userOk u = true) (hp : trusted = true ∨ verifyPeer lib cert o = .ok) :
    verifyCert lib o userOk chain s cert depth true trusted = (if depth = 0 then { s with username := some u } else s, .ok) := by
  unfold verifyCert
  rcases hs with hs | hs
  · rw [hs]
    simp only [Option.isSome_none, Bool.false_eq_true, if_false, Bool.true_eq_false]
    by_cases hd : depth = 0
    · simp only [hd, if_true]
      have : (if trusted then V.ok else verifyPeer lib cert o) = .ok := by
        rcases hp with hp | hp
        · simp [hp]
        · simp [hp]
      simp only [this, hu, hk, if_true]
    · simp only [hd, if_false]
  · rw [hs]
    simp only [Option.isSome_some, if_true]
    split
    · rw [← hs]
    · rfl

/-- Induction over the callbacks of an accepted handshake. -/
theorem run_inv {o : Endpt} {userOk : Text → Bool} {chain : List Cert} {peer : Cert} (I : List Ev → Sess → Prop)
    (step : ∀ done ev s s', I done s → callback o userOk chain peer s ev = .ret s' true → I (done ++ [ev]) s') :
    ∀ (evs done : List Ev) (s s' : Sess), I done s → run o userOk chain peer s evs = some s' → I (done ++ evs) s'
  | [], done, s, s', h, hr => by
    simp only [run, Option.some.injEq] at hr
    rw [List.append_nil, ← hr]
    exact h
  | ev :: t, done, s, s', h, hr => by
    simp only [run] at hr
    split at hr
    · rename_i s1 hc
      have := run_inv I step t (done ++ [ev]) s1 s' (step done ev s s1 h hc) hr
      simpa using this
    · cases hr

/-- What a callback answering 1 means. -/
theorem callback_true {o : Endpt} {userOk : Text → Bool} {chain : List Cert} {peer : Cert} {s s' : Sess} {ev : Ev}
    (h : callback o userOk chain peer s ev = .ret s' true) :
    (∃ s1, cbVerify o userOk chain peer s ev = (s1, .ok) ∧
      s' = if ev.depth = 0 ∧ s1.clientCert.isNone then { s1 with clientCert := some (cbCert peer ev) } else s1) ∨
    (cbVerify o userOk chain peer s ev = (s', .fail) ∧ ev.depth > 0) := by
  unfold callback at h
  split at h
  · cases h
  · cases h
  · cases h
  · rename_i s1 hv
    simp only [Cb.ret.injEq, and_true] at h
    exact .inl ⟨s1, hv, h.symm⟩
  · rename_i s1 hv
    simp only [Cb.ret.injEq, decide_eq_true_eq] at h
    exact .inr ⟨h.1 ▸ hv, h.2⟩

/-- What `ret == 0` means in the callback. -/
theorem cbVerify_ok {o : Endpt} {userOk : Text → Bool} {chain : List Cert} {peer : Cert} {s s' : Sess} {ev : Ev}
    (hpeer : ev.depth = 0 → ev.cert = peer) (h : cbVerify o userOk chain peer s ev = (s', .ok)) :
    (s' = s ∧ (ev.depth > 0 ∨ (s.username.isSome ∧ (ev.preverify = true ∨ ev.err ≠ .other)) ∨ (ev.preverify = false ∧ ev.err = .selfSignedInChain)) ∧
      (ev.preverify = false → ev.err = .selfSignedInChain → Configured o peer)) ∨
    (s.username = none ∧ ev.depth = 0 ∧ (ev.preverify = true ∨ (ev.err ≠ .other ∧ ev.err ≠ .selfSignedInChain ∧ Configured o peer)) ∧
      ∃ u, endptName o chain = .name u ∧ userOk u = true ∧ s' = { s with username := some u }) := by
  unfold cbVerify at h
  split at h
  · rename_i hp
    rcases verifyCert_ok h with ⟨rfl, h1 | h1⟩ | ⟨h1, h2, h3, u, h4, h5, h6⟩
    · exact .inl ⟨rfl, .inr (.inl ⟨h1, .inl hp⟩), fun hf => absurd hp (by simp [hf])⟩
    · exact .inl ⟨rfl, .inl h1, fun hf => absurd hp (by simp [hf])⟩
    · exact .inr ⟨h1, h2, .inl hp, u, h4, h5, h6⟩
  · rename_i hp
    split at h
    · rename_i he
      have e1 : ev.err ≠ .other := by rcases he.2 with e | e <;> rw [e] <;> decide
      have e2 : ev.err ≠ .selfSignedInChain := by rcases he.2 with e | e <;> rw [e] <;> decide
      rcases verifyCert_ok h with ⟨rfl, h1 | h1⟩ | ⟨h1, h2, h3, u, h4, h5, h6⟩
      · exact .inl ⟨rfl, .inr (.inl ⟨h1, .inr e1⟩), fun _ hf => absurd hf e2⟩
      · exact .inl ⟨rfl, .inl h1, fun _ hf => absurd hf e2⟩
      · refine .inr ⟨h1, h2, .inr ⟨e1, e2, ?_⟩, u, h4, h5, h6⟩
        rcases h3 with h3 | h3
        · cases h3
        · rwa [hpeer h2] at h3
    · split at h
      · rename_i he
        have e1 : ev.err ≠ .other := by rcases he with e | e <;> rw [e] <;> decide
        have e2 : ev.err ≠ .selfSignedInChain := by rcases he with e | e <;> rw [e] <;> decide
        rcases verifyCert_ok h with ⟨rfl, h1 | h1⟩ | ⟨h1, h2, h3, u, h4, h5, h6⟩
        · exact .inl ⟨rfl, .inr (.inl ⟨h1, .inr e1⟩), fun _ hf => absurd hf e2⟩
        · exact .inl ⟨rfl, .inl h1, fun _ hf => absurd hf e2⟩
        · refine .inr ⟨h1, h2, .inr ⟨e1, e2, ?_⟩, u, h4, h5, h6⟩
          rcases h3 with h3 | h3
          · cases h3
          · rwa [hpeer h2] at h3
      · split at h
        · rename_i he
          split at h
          · rename_i hv
            cases h
            exact .inl ⟨rfl, .inr (.inr ⟨by simpa using hp, he⟩), fun _ _ => verifyPeer_ok hv⟩
          · cases h
          · cases h
        · cases h

/-- The state of an accepted handshake and the calls made so far. -/
structure RunInv (o : Endpt) (userOk : Text → Bool) (chain : List Cert) (peer : Cert) (done : List Ev) (s : Sess) : Prop where
  noName : s.username = none → ∀ ev ∈ done, ev.depth = 0 → ev.preverify = false ∧ ev.err = .selfSignedInChain
  name : ∀ u, s.username = some u → endptName o chain = .name u ∧ userOk u = true ∧
    (Configured o peer ∨ ∃ pre e post, done = pre ++ e :: post ∧ e.depth = 0 ∧ e.preverify = true ∧ ∀ e' ∈ pre, e'.depth ≠ 0)
  configured : ∀ ev ∈ done, ev.depth = 0 → ev.preverify = false → ev.err = .selfSignedInChain → Configured o peer
  noOther : ∀ ev ∈ done, ev.depth = 0 → ev.preverify = false → ev.err ≠ .other
  cert : ∀ ev ∈ done, ev.depth = 0 → s.clientCert = some peer
  noCert : (∀ ev ∈ done, ev.depth ≠ 0) → s.clientCert = none

theorem cbVerify_fail {o : Endpt} {userOk : Text → Bool} {chain : List Cert} {peer : Cert} {s s' : Sess} {ev : Ev}
    (hd : ev.depth > 0) (h : cbVerify o userOk chain peer s ev = (s', .fail)) : s' = s := by
  have vc : ∀ lib cert names trusted s' v, verifyCert lib o userOk chain s cert ev.depth names trusted = (s', v) → s' = s := by
    intro lib cert names trusted s' v hv
    unfold verifyCert at hv
    split at hv
    · cases hv; rfl
    · split at hv
      · cases hv; rfl
      · rw [if_neg (by omega)] at hv
        cases hv; rfl
  unfold cbVerify at h
  split at h
  · exact vc _ _ _ _ _ _ h
  · split at h
    · exact vc _ _ _ _ _ _ h
    · split at h
      · exact vc _ _ _ _ _ _ h
      · split at h
        · split at h <;> cases h
        · cases h; rfl

theorem runInv_step {o : Endpt} {userOk : Text → Bool} {chain : List Cert} {peer : Cert} {done : List Ev} {ev : Ev} {s s' : Sess}
    (hpeer : ev.depth = 0 → ev.cert = peer)
    (hI : RunInv o userOk chain peer done s) (h : callback o userOk chain peer s ev = .ret s' true) : RunInv o userOk chain peer (done ++ [ev]) s' := by
  have mem : ∀ e, e ∈ done ++ [ev] → e ∈ done ∨ e = ev := by
    intro e he
    simpa using he
  -- an event above the client's certificate changes nothing
  have above : ev.depth > 0 → s' = s → RunInv o userOk chain peer (done ++ [ev]) s' := by
    rintro hd rfl
    refine ⟨?_, ?_, ?_, ?_, ?_, ?_⟩
    · intro hn e he h0
      rcases mem e he with he | rfl
      · exact hI.noName hn e he h0
      · omega
    · intro u hu
      obtain ⟨h1, h2, h3⟩ := hI.name u hu
      refine ⟨h1, h2, h3.imp id ?_⟩
      rintro ⟨pre, e, post, rfl, h⟩
      exact ⟨pre, e, post ++ [ev], by simp, h⟩
    · intro e he h0
      rcases mem e he with he | rfl
      · exact hI.configured e he h0
      · omega
    · intro e he h0
      rcases mem e he with he | rfl
      · exact hI.noOther e he h0
      · omega
    · intro e he h0
      rcases mem e he with he | rfl
      · exact hI.cert e he h0
      · omega
    · intro hn
      exact hI.noCert (fun e he => hn e (by simp [he]))
  rcases callback_true h with ⟨s1, hv, hs'⟩ | ⟨hv, hd⟩
  · by_cases hd : ev.depth = 0
    · -- the client's certificate
      have hcert : s'.clientCert = some peer := by
        have hc : cbCert peer ev = peer := by
          unfold cbCert
          split
          · rfl
          · exact hpeer hd
        have h1 : s1.clientCert = s.clientCert := by
          rcases cbVerify_ok hpeer hv with ⟨rfl, -⟩ | ⟨-, -, -, u, -, -, rfl⟩ <;> rfl
        rw [hs']
        split
        · simp [hc]
        · rename_i hn
          have hn' : s1.clientCert ≠ none := by simpa [hd] using hn
          rw [h1] at hn' ⊢
          by_cases hall : ∀ e ∈ done, e.depth ≠ 0
          · exact absurd (hI.noCert hall) hn'
          · have : ∃ e ∈ done, e.depth = 0 := by
              refine Classical.byContradiction fun hc => hall fun e he h0 => hc ⟨e, he, h0⟩
            obtain ⟨e, he, h0⟩ := this
            exact hI.cert e he h0
      have huser : s'.username = s1.username := by rw [hs']; split <;> rfl
      rcases cbVerify_ok hpeer hv with ⟨rfl, h2, h3⟩ | ⟨h1, -, h2, u, h3, h4, rfl⟩
      · refine ⟨?_, ?_, ?_, ?_, fun _ _ _ => hcert, fun hn => absurd hd (hn ev (by simp))⟩
        · intro hn e he h0
          rw [huser] at hn
          rcases mem e he with he | rfl
          · exact hI.noName hn e he h0
          · rcases h2 with h2 | ⟨h2, -⟩ | h2
            · omega
            · rw [hn] at h2; cases h2
            · exact h2
        · intro u hu
          rw [huser] at hu
          obtain ⟨h5, h6, h7⟩ := hI.name u hu
          refine ⟨h5, h6, h7.imp id ?_⟩
          rintro ⟨pre, e, post, rfl, h⟩
          exact ⟨pre, e, post ++ [ev], by simp, h⟩
        · intro e he h0
          rcases mem e he with he | rfl
          · exact hI.configured e he h0
          · exact h3
        · intro e he h0 hp
          rcases mem e he with he | rfl
          · exact hI.noOther e he h0 hp
          · rcases h2 with h2 | ⟨-, h2⟩ | ⟨-, h2⟩
            · omega
            · rcases h2 with h2 | h2
              · rw [h2] at hp; cases hp
              · exact h2
            · rw [h2]; decide
      · have huser' : s'.username = some u := huser
        refine ⟨?_, ?_, ?_, ?_, fun _ _ _ => hcert, fun hn => absurd hd (hn ev (by simp))⟩
        · intro hn
          rw [huser'] at hn; cases hn
        · intro u' hu'
          rw [huser'] at hu'
          cases hu'
          refine ⟨h3, h4, ?_⟩
          rcases h2 with h2 | ⟨-, -, h2⟩
          · by_cases hall : ∀ e ∈ done, e.depth ≠ 0
            · exact .inr ⟨done, ev, [], rfl, hd, h2, hall⟩
            · have : ∃ e ∈ done, e.depth = 0 := by
                refine Classical.byContradiction fun hc => hall fun e he h0 => hc ⟨e, he, h0⟩
              obtain ⟨e, he, h0⟩ := this
              obtain ⟨e1, e2⟩ := hI.noName h1 e he h0
              exact .inl (hI.configured e he h0 e1 e2)
          · exact .inl h2
        · intro e he h0 hp hss
          rcases mem e he with he | rfl
          · exact hI.configured e he h0 hp hss
          · rcases h2 with h2 | ⟨-, h2, -⟩
            · rw [h2] at hp; cases hp
            · exact absurd hss h2
        · intro e he h0 hp
          rcases mem e he with he | rfl
          · exact hI.noOther e he h0 hp
          · rcases h2 with h2 | ⟨h2, -⟩
            · rw [h2] at hp; cases hp
            · exact h2
    · have hd' : ev.depth > 0 := by omega
      refine above hd' ?_
      rw [hs', if_neg (fun h => hd h.1)]
      rcases cbVerify_ok hpeer hv with ⟨rfl, -⟩ | ⟨-, h0, -⟩
      · rfl
      · exact absurd h0 hd
  · exact above hd (cbVerify_fail hd hv)

theorem runInv_of_run {o : Endpt} {userOk : Text → Bool} {chain : List Cert} {peer : Cert} {evs : List Ev} {s : Sess}
    (hpeer : ∀ ev ∈ evs, ev.depth = 0 → ev.cert = peer) (h : run o userOk chain peer ⟨none, none⟩ evs = some s) : RunInv o userOk chain peer evs s := by
  have base : RunInv o userOk chain peer [] ⟨none, none⟩ :=
    ⟨by simp, (by simp), by simp, by simp, by simp, fun _ => rfl⟩
  have key := run_inv (o := o) (userOk := userOk) (chain := chain) (peer := peer)
    (fun done s => (∀ ev ∈ done, ev.depth = 0 → ev.cert = peer) → RunInv o userOk chain peer done s)
    (fun done ev s s' hI hc hp => runInv_step (hp ev (by simp)) (hI fun e he => hp e (by simp [he])) hc)
    evs [] ⟨none, none⟩ s (fun _ => base) h
  exact key hpeer

/-! ## mbedTLS -/

theorem mCallback_noFlags {o : Endpt} {userOk : Text → Bool} {chain : List Cert} {s s' : Sess} {ev : MEv}
    (h : mCallback o userOk chain s ev = some (s', noFlags)) :
    (∃ trusted s1, verifyCert .mbedtls o userOk chain s ev.cert ev.depth ev.names trusted = (s1, .ok) ∧
      (trusted = true ∧ ev.flags = noFlags ∨ trusted = false ∧ (ev.depth = 0 ∧ ev.flags = ⟨true, false, false⟩ ∨ ev.flags = ⟨false, true, false⟩)) ∧
      s' = if ev.depth = 0 ∧ s1.clientCert.isNone then { s1 with clientCert := some ev.cert } else s1) ∨
    (ev.depth > 0 ∧ ev.flags = noFlags ∧ verifyCert .mbedtls o userOk chain s ev.cert ev.depth ev.names true = (s', .fail)) := by
  unfold mCallback at h
  by_cases h0 : ev.flags = noFlags
  · simp only [h0, if_true] at h
    cases hv : verifyCert .mbedtls o userOk chain s ev.cert ev.depth ev.names true with
    | mk s1 v =>
      rw [hv] at h
      cases v with
      | ok =>
        simp only [Option.some.injEq, Prod.mk.injEq, and_true] at h
        exact .inl ⟨true, s1, hv, .inl ⟨rfl, h0⟩, h.symm⟩
      | fail =>
        simp only [Option.some.injEq, Prod.mk.injEq] at h
        by_cases hd : ev.depth = 0
        · simp [hd, noFlags] at h
        · exact .inr ⟨by omega, h0, by rw [h.1]⟩
      | fatal => cases h
      | null => cases h
      | overread => cases h
  · simp only [h0, if_false] at h
    have sub : ∀ (c : ev.depth = 0 ∧ ev.flags = ⟨true, false, false⟩ ∨ ev.flags = ⟨false, true, false⟩),
        (match (verifyCert .mbedtls o userOk chain s ev.cert ev.depth ev.names false,
            if (verifyCert .mbedtls o userOk chain s ev.cert ev.depth ev.names false).2 = .ok then noFlags else ev.flags) with
          | (r, flags) => (match r with
            | (s, .ok) => some (if ev.depth = 0 ∧ s.clientCert.isNone then { s with clientCert := some ev.cert } else s, flags)
            | (s, .fail) => some (s, if ev.depth = 0 ∧ flags = noFlags then (⟨false, false, true⟩ : Flags) else flags)
            | _ => none)) = some (s', noFlags) →
        ∃ trusted s1, verifyCert .mbedtls o userOk chain s ev.cert ev.depth ev.names trusted = (s1, .ok) ∧
          (trusted = true ∧ ev.flags = noFlags ∨ trusted = false ∧ (ev.depth = 0 ∧ ev.flags = ⟨true, false, false⟩ ∨ ev.flags = ⟨false, true, false⟩)) ∧
          s' = if ev.depth = 0 ∧ s1.clientCert.isNone then { s1 with clientCert := some ev.cert } else s1 := by
      intro c hm
      cases hv : verifyCert .mbedtls o userOk chain s ev.cert ev.depth ev.names false with
      | mk s1 v =>
        rw [hv] at hm
        cases v with
        | ok =>
          simp only [if_true, Option.some.injEq, Prod.mk.injEq, and_true] at hm
          exact ⟨false, s1, hv, .inr ⟨rfl, c⟩, hm.symm⟩
        | fail =>
          simp only [reduceCtorEq, if_false, Option.some.injEq, Prod.mk.injEq, h0, and_false] at hm
        | fatal => cases hm
        | null => cases hm
        | overread => cases hm
    by_cases h1 : ev.depth = 0 ∧ ev.flags = ⟨true, false, false⟩
    · simp only [h1, and_self, if_true] at h
      refine .inl (sub (.inl h1) ?_)
      simp only [h1]
      exact h
    · simp only [h1, if_false] at h
      by_cases h2 : ev.flags = ⟨false, true, false⟩
      · simp only [h2, if_true] at h
        refine .inl (sub (.inr h2) ?_)
        simp only [h2]
        exact h
      · simp only [h2, if_false, Option.some.injEq, Prod.mk.injEq, h0, and_false, if_false] at h

end Verif.TlsAuth
