import Verif.Lemmas.ManyThreads

/-! # Lemmas about threads that go on -/

namespace Verif.ManyThreads
open NcErr ServerRpc
open Verif.Poll (Status tNone tClosed tKilled tDropped tOther tTimeout)

theorem run_append (cf : Conf) : ∀ (l l' : List (Nat × Act)) (s : St), run cf s (l ++ l') = (run cf s l).bind fun s => run cf s l'
  | [], l', s => rfl
  | (t, a) :: l, l', s => by
    rw [List.cons_append, run, run]
    cases step cf s t a with
    | none => rfl
    | some s1 => exact run_append cf l l' s1

/-- The thread gets to the end of what it is doing, alone. -/
def Ends (cf : Conf) (t : Nat) (s : St) : Prop :=
  ∃ more s', (∀ x ∈ more, x.1 = t ∧ Smooth x.2) ∧ run cf s more = some s' ∧ s'.pc t = .idle ∧ s'.io = none ∧ s'.inp <:+ s.inp

theorem ends_step {cf : Conf} {t : Nat} {s s1 : St} (a : Act) (h : step cf s t a = some s1) (ha : Smooth a) (hi : s1.inp <:+ s.inp) (he : Ends cf t s1) :
    Ends cf t s := by
  obtain ⟨more, s', h1, h2, h3, h4, h5⟩ := he
  refine ⟨(t, a) :: more, s', ?_, ?_, h3, h4, h5.trans hi⟩
  · intro x hx
    rcases List.mem_cons.1 hx with rfl | hx
    · exact ⟨rfl, ha⟩
    · exact h1 x hx
  · rw [run, h]; exact h2

theorem ends_idle {cf : Conf} {t : Nat} {s : St} (hp : s.pc t = .idle) (hi : s.io = none) : Ends cf t s :=
  ⟨[], s, by simp, rfl, hp, hi, List.suffix_refl _⟩

theorem ends_unlock {cf : Conf} {t : Nat} {s : St} (hp : s.pc t = .unlock) (hi : s.io = none) : Ends cf t s :=
  ends_step .go (s1 := { s with rpc := none }.at t .idle) (by simp [step, hp]) trivial (List.suffix_refl _) (ends_idle (at_self _ _ _) hi)

theorem ends_wrote {cf : Conf} {t : Nat} {s : St} {a : Caller} {ok : Bool} (hp : s.pc t = .wrote a ok) (hi : s.io = none) : Ends cf t s := by
  cases a with
  | notif => exact ends_step .go (s1 := s.at t .idle) (by simp [step, hp]) trivial (List.suffix_refl _) (ends_idle (at_self _ _ _) hi)
  | recv =>
    refine ends_step .go (s1 := (if ok = false ∧ s.status ≠ .invalid then { s with status := .invalid, reason := tOther } else s).at t .unlock)
      (by simp [step, hp]) trivial ?_ (ends_unlock (at_self _ _ _) ?_)
    · split <;> exact List.suffix_refl _
    · split <;> exact hi
  | send =>
    refine ends_step .go (s1 := (if s.status = .running ∧ s.reason ≠ tNone then { s with status := .invalid } else s).at t .unlock)
      (by simp [step, hp]) trivial ?_ (ends_unlock (at_self _ _ _) ?_)
    · split <;> exact List.suffix_refl _
    · split <;> exact hi

theorem ends_writing {cf : Conf} {t : Nat} {a : Caller} {m : Msg} {ok : Bool} : ∀ (rest : List (List Byte)) (cur : List Byte) (s : St),
    s.pc t = .writing a m cur rest ok → Ends cf t s
  | rest, b :: cur, s, hp => by
    refine ends_step (.accept (b :: cur).length) (s1 := { s with wire := s.wire ++ (b :: cur) }.at t (.writing a m [] rest ok)) ?_ trivial (List.suffix_refl _)
      (ends_writing rest [] _ (at_self _ _ _))
    simp [step, hp]
  | [], [], s, hp =>
    ends_step .go (s1 := { s with io := none, out := if ok then s.out ++ [m] else s.out }.at t (.wrote a s.open)) (by simp [step, hp]) trivial
      (List.suffix_refl _) (ends_wrote (at_self _ _ _) rfl)
  | p :: rest, [], s, hp => by
    cases ho : s.open with
    | true => exact ends_step .go (s1 := s.at t (.writing a m p rest ok)) (by simp [step, hp, ho]) trivial (List.suffix_refl _) (ends_writing rest p _ (at_self _ _ _))
    | false =>
      exact ends_step (.refuse false) (s1 := { s with io := none }.at t (.wrote a false)) (by simp [step, hp, ho]) trivial (List.suffix_refl _)
        (ends_wrote (at_self _ _ _) rfl)
  termination_by rest cur => (rest.length, cur.length)

theorem ends_writeLock {cf : Conf} {t : Nat} {s : St} {a : Caller} {m : Msg} (hp : s.pc t = .writeLock a m) (hi : s.io = none) : Ends cf t s :=
  ends_step .lock (s1 := { s with io := some t }.at t (.writing a m [] (cf.pieces m) true)) (by simp [step, hp, hi]) trivial (List.suffix_refl _)
    (ends_writing _ _ _ (at_self _ _ _))

theorem ends_write {cf : Conf} {t : Nat} {s : St} {a : Caller} {m : Msg} (hp : s.pc t = .write a m) (hi : s.io = none) : Ends cf t s := by
  cases ho : s.open with
  | true => exact ends_step .go (s1 := s.at t (.writeLock a m)) (by simp [step, hp, ho]) trivial (List.suffix_refl _) (ends_writeLock (at_self _ _ _) hi)
  | false => exact ends_step .go (s1 := s.at t (.wrote a false)) (by simp [step, hp, ho]) trivial (List.suffix_refl _) (ends_wrote (at_self _ _ _) hi)

theorem answerCb_write (e : Envp) (r : Option Reply) : ∃ a m, answerCb e r = .write a m := by
  have h : ∀ r : Reply, ∃ a m, answer .send (some e) r = .write a m := by
    intro r
    cases r <;> exact ⟨_, _, rfl⟩
  unfold answerCb
  cases r with
  | some r => exact h r
  | none => exact h _

theorem answerErr_goes (e : Option Envp) (r : Option Err) : answerErr e r = .unlock ∨ ∃ a m, answerErr e r = .write a m := by
  unfold answerErr
  cases r with
  | none => exact .inl rfl
  | some r => cases e <;> exact .inr ⟨_, _, rfl⟩

theorem ends_inCb {cf : Conf} {t : Nat} {s : St} {e : Envp} {op : ServerRpc.Op} {c : Nat} (hp : s.pc t = .inCb e op c) (hi : s.io = none) : Ends cf t s := by
  obtain ⟨a, m, h⟩ := answerCb_write e (cf.srv.run c op s.status s.reason).reply
  exact ends_step .go (s1 := { s with status := (cf.srv.run c op s.status s.reason).status, reason := (cf.srv.run c op s.status s.reason).reason }.at t (.write a m))
    (by simp [step, hp, h]) trivial (List.suffix_refl _) (ends_write (at_self _ _ _) hi)

theorem calling_goes (srv : Srv) (e : Envp) (op : ServerRpc.Op) : ((calling srv e op).1 = .unlock ∨ ∃ a m, (calling srv e op).1 = .write a m) ∨
    ∃ c, (calling srv e op).1 = .inCb e op c := by
  unfold calling
  cases rpcNode op with
  | none => exact .inl (.inl rfl)
  | some n =>
    dsimp only
    split
    · exact .inl (.inr (answerCb_write e (replyErr (mkErr .opNotSupported .prot none none))))
    · exact .inr ⟨_, rfl⟩
    · exact .inr ⟨_, rfl⟩

theorem ends_call {cf : Conf} {t : Nat} {s : St} {e : Envp} {op : ServerRpc.Op} (hp : s.pc t = .call e op) (hi : s.io = none) : Ends cf t s := by
  have h : ∀ s1 : St, s1.io = none → s1.pc t = (calling cf.srv e op).1 → Ends cf t s1 := by
    intro s1 hi hp
    rcases calling_goes cf.srv e op with (h | ⟨a, m, h⟩) | ⟨c, h⟩ <;> rw [h] at hp
    · exact ends_unlock hp hi
    · exact ends_write hp hi
    · exact ends_inCb hp hi
  cases hc : calling cf.srv e op with
  | mk p c =>
    rw [hc] at h
    cases c with
    | none => exact ends_step .go (s1 := s.at t p) (by simp [step, hp, hc]) trivial (List.suffix_refl _) (h _ hi (at_self _ _ _))
    | some c =>
      exact ends_step .go (s1 := { s with calls := s.calls ++ [(c, op)] }.at t p) (by simp [step, hp, hc]) trivial (List.suffix_refl _) (h _ hi (at_self _ _ _))

theorem prepareErr_defined (v11 : Bool) (envp : Bool) (find : Text → Option Node) {x : LyErr} (hslash : ∀ p, x.path = some p → '/' ∈ p)
    (hcolon : (∃ r, x.msg = c!"Annotation definition for attribute" ++ r) → ∃ p, x.path = some p ∧ ':' ∈ p) :
    ∃ y, prepareErr v11 envp find (some x) = some y := by
  unfold prepareErr
  split
  · exact ⟨_, rfl⟩
  · dsimp only
    split
    · split <;> exact ⟨_, rfl⟩
    · have hn : ∃ cn, findNode find x.path = some cn := by
        cases hp : x.path with
        | none => exact ⟨_, rfl⟩
        | some p => unfold findNode afterLast; dsimp only; rw [if_pos (hslash p hp)]; exact ⟨_, rfl⟩
      obtain ⟨cn, hcn⟩ := hn
      rw [hcn]
      dsimp only
      have hc : ∃ r, chooseErr cn x = some r := by
        unfold chooseErr
        cases cn with
        | none =>
          dsimp only
          split
          · exact ⟨_, rfl⟩
          · split <;> exact ⟨_, rfl⟩
        | some n =>
          dsimp only
          split
          · split <;> exact ⟨_, rfl⟩
          · split
            · rename_i hst
              obtain ⟨p, hp, hmem⟩ := hcolon ((strstarts_iff _ _).1 hst)
              rw [hp]
              unfold afterLast
              dsimp only
              rw [if_pos hmem]
              exact ⟨_, rfl⟩
            · split
              · exact ⟨_, rfl⟩
              · split <;> exact ⟨_, rfl⟩
      obtain ⟨r, hr⟩ := hc
      rw [hr]
      exact ⟨_, rfl⟩

theorem parsed_goes {srv : Srv} {v11 : Bool} {r : Read} (hl : Logs r) : (parsed srv v11 r = .unlock ∨ ∃ a m, parsed srv v11 r = .write a m) ∨
    ∃ e op, parsed srv v11 r = .call e op := by
  cases r with
  | failed _ _ => exact .inl (.inl rfl)
  | busy => exact .inl (.inl rfl)
  | frame => exact .inl (answerErr_goes none (mkErr .malformedMsg .rpc none none))
  | parsed e op =>
    unfold parsed
    dsimp only
    split
    · exact .inr ⟨_, _, rfl⟩
    · exact .inl (answerErr_goes _ _)
  | rejected envp e =>
    have h : ∃ x, prepareErr v11 envp.isSome srv.find e = some x := by
      obtain ⟨x, rfl, h1, h2⟩ := hl
      exact prepareErr_defined _ _ _ h1 h2
    obtain ⟨x, h⟩ := h
    unfold parsed
    simp only [h]
    exact .inl (answerErr_goes _ _)

theorem ends_parse {cf : Conf} {t : Nat} {s : St} {r : Read} (hl : Logs r) (hp : s.pc t = .parse r) (hi : s.io = none) : Ends cf t s := by
  refine ends_step .go (s1 := s.at t (parsed cf.srv s.v11 r)) (by simp [step, hp]) trivial (List.suffix_refl _) ?_
  rcases parsed_goes hl (srv := cf.srv) (v11 := s.v11) with (h | ⟨a, m, h⟩) | ⟨c, o, h⟩ <;> rw [h]
  · exact ends_unlock (at_self _ _ _) hi
  · exact ends_write (at_self _ _ _) hi
  · exact ends_call (at_self _ _ _) hi

theorem readEnd_parts (s : St) (r : Read) (rest : List Read) : (readEnd s r rest).io = none ∧ (readEnd s r rest).inp = rest ∧
    (readEnd s r rest).got = s.got ++ [r] := by
  unfold readEnd; split <;> exact ⟨rfl, rfl, rfl⟩

theorem ends_reading {cf : Conf} {t : Nat} {s : St} (hl : ∀ r ∈ s.inp, Logs r) (hn : s.inp ≠ []) (hp : s.pc t = .reading) : Ends cf t s := by
  cases hs : s.inp with
  | nil => exact absurd hs hn
  | cons r rest =>
    obtain ⟨h1, h2, _⟩ := readEnd_parts s r rest
    refine ends_step .go (s1 := (readEnd s r rest).at t (.parse r)) (by simp [step, hp, hs]) trivial ?_ (ends_parse (hl r (by simp [hs])) (at_self _ _ _) h1)
    show (readEnd s r rest).inp <:+ s.inp
    rw [h2, hs]; exact List.suffix_cons _ _

theorem ends_readLock {cf : Conf} {t : Nat} {s : St} (hl : ∀ r ∈ s.inp, Logs r) (hn : s.inp ≠ []) (hp : s.pc t = .readLock) (hi : s.io = none) : Ends cf t s :=
  ends_step .lock (s1 := { s with io := some t }.at t .reading) (by simp [step, hp, hi]) trivial (List.suffix_refl _) (ends_reading hl hn (at_self _ _ _))

theorem ends_read {cf : Conf} {t : Nat} {s : St} (hl : ∀ r ∈ s.inp, Logs r) (hn : s.inp ≠ []) (hp : s.pc t = .read) (hi : s.io = none) : Ends cf t s := by
  cases ho : s.open with
  | true => exact ends_step .go (s1 := s.at t .readLock) (by simp [step, hp, ho]) trivial (List.suffix_refl _) (ends_readLock hl hn (at_self _ _ _) hi)
  | false => exact ends_step .go (s1 := s.at t .unlock) (by simp [step, hp, ho]) trivial (List.suffix_refl _) (ends_unlock (at_self _ _ _) hi)

theorem ends_recv {cf : Conf} {t : Nat} {s : St} (hl : ∀ r ∈ s.inp, Logs r) (hn : s.inp ≠ []) (hp : s.pc t = .recv) (hi : s.io = none) : Ends cf t s := by
  by_cases ho : s.status = .running
  · exact ends_step .go (s1 := s.at t .read) (by simp [step, hp, ho]) trivial (List.suffix_refl _) (ends_read hl hn (at_self _ _ _) hi)
  · exact ends_step .go (s1 := s.at t .unlock) (by simp [step, hp, ho]) trivial (List.suffix_refl _) (ends_unlock (at_self _ _ _) hi)

theorem ends_polling {cf : Conf} {t : Nat} {s : St} (hl : ∀ r ∈ s.inp, Logs r) (hp : s.pc t = .polling) : Ends cf t s := by
  by_cases hn : s.inp = []
  · exact ends_step .nodata (s1 := { s with io := none }.at t .unlock) (by simp [step, hp]) trivial (List.suffix_refl _) (ends_unlock (at_self _ _ _) rfl)
  · exact ends_step .data (s1 := { s with io := none }.at t .recv) (by simp [step, hp, hn]) trivial (List.suffix_refl _) (ends_recv hl hn (at_self _ _ _) rfl)

theorem ends_pollLock {cf : Conf} {t : Nat} {s : St} (hl : ∀ r ∈ s.inp, Logs r) (hp : s.pc t = .pollLock) (hi : s.io = none) : Ends cf t s :=
  ends_step .lock (s1 := { s with io := some t }.at t .polling) (by simp [step, hp, hi]) trivial (List.suffix_refl _) (ends_polling hl (at_self _ _ _))

theorem ends_poll {cf : Conf} {t : Nat} {s : St} (hl : ∀ r ∈ s.inp, Logs r) (hp : s.pc t = .poll) (hi : s.io = none) : Ends cf t s := by
  by_cases ho : s.status = .running
  · exact ends_step .go (s1 := s.at t .pollLock) (by simp [step, hp, ho]) trivial (List.suffix_refl _) (ends_pollLock hl (at_self _ _ _) hi)
  · exact ends_step .go (s1 := s.at t .unlock) (by simp [step, hp, ho]) trivial (List.suffix_refl _) (ends_unlock (at_self _ _ _) hi)

/-! ## What holds in every state -/

/-- Places where a message must be there. -/
def needs : Pc → Bool
  | .recv | .read | .readLock | .reading => true
  | _ => false

/-- A place a thread can be at. -/
def FineAt (inp : List Read) (p : Pc) : Prop := p ≠ .ub ∧ (needs p = true → inp ≠ []) ∧ ∀ r, p = .parse r → Logs r

structure Fine (s : St) : Prop where
  logs : ∀ r ∈ s.inp, Logs r
  at' : ∀ t, FineAt s.inp (s.pc t)

theorem fineAt_other {inp : List Read} {p : Pc} (h1 : p ≠ .ub) (h2 : needs p = false) (h3 : ∀ r, p ≠ .parse r) : FineAt inp p :=
  ⟨h1, (fun h => by rw [h2] at h; cases h), fun r h => absurd h (h3 r)⟩

theorem fine_update {s s1 : St} {t : Nat} {p : Pc} (h : Fine s) (hpc : s1.pc = s.pc) (hinp : s1.inp = s.inp) (hp : FineAt s.inp p) : Fine (s1.at t p) where
  logs := fun r hr => h.logs r (by rw [← hinp]; exact hr)
  at' := fun u => by
    rw [at_pc]
    show FineAt s1.inp _
    rw [hinp, hpc]
    split
    · exact hp
    · exact h.at' u

theorem needs_holds {p : Pc} (h : needs p = true) : holdsRpc p = true := by
  cases p <;> simp_all [needs, holdsRpc]

theorem fine_goes {inp : List Read} {p : Pc} (h : p = .unlock ∨ ∃ a m, p = .write a m) : FineAt inp p := by
  rcases h with rfl | ⟨a, m, rfl⟩ <;> exact fineAt_other (by simp) rfl (by simp)

theorem fine_step {cf : Conf} {s : St} {t : Nat} {a : Act} {s' : St} (hk : Locks s) (hf : Fine s) (hs : step cf s t a = some s') : Fine s' := by
  have hu : ∀ {s1 : St} {p : Pc}, s1.pc = s.pc → s1.inp = s.inp → p ≠ .ub → needs p = false → (∀ r, p ≠ .parse r) → Fine (s1.at t p) :=
    fun h1 h2 h3 h4 h5 => fine_update hf h1 h2 (fineAt_other h3 h4 h5)
  cases step_moves hs with
  | setStatus st => exact ⟨hf.logs, hf.at'⟩
  | setReason re => exact ⟨hf.logs, hf.at'⟩
  | skip => exact hf
  | read r rest hp hi =>
    obtain ⟨h1, h2, _⟩ := readEnd_parts s r rest
    have h4 : (readEnd s r rest).pc = s.pc := by unfold readEnd; split <;> rfl
    refine ⟨fun x hx => hf.logs x ?_, fun u => ?_⟩
    · have : x ∈ (readEnd s r rest).inp := hx
      rw [h2] at this
      rw [hi]; simp [this]
    · rw [at_pc]
      split
      · exact ⟨by simp, fun h => by simp [needs] at h, fun x h => by cases h; exact hf.logs _ (by simp [hi])⟩
      · rename_i hne
        rw [h4]
        obtain ⟨g1, g2, g3⟩ := hf.at' u
        refine ⟨g1, fun h => ?_, g3⟩
        have e1 := (hk u).1.1 (needs_holds h)
        have e2 := (hk t).1.1 (by rw [hp]; rfl)
        rw [e1] at e2
        exact absurd (Option.some.inj e2) hne
  | parse r hp =>
    refine fine_update hf rfl rfl ?_
    rcases parsed_goes ((hf.at' t).2.2 r hp) (srv := cf.srv) (v11 := s.v11) with h | ⟨e, o, h⟩
    · exact fine_goes h
    · rw [h]; exact fineAt_other (by simp) rfl (by simp)
  | call0 e op p hp hc =>
    refine fine_update hf rfl rfl ?_
    have := calling_goes cf.srv e op
    rw [hc] at this
    rcases this with h | ⟨c, h⟩
    · exact fine_goes h
    · dsimp only at h; rw [h]; exact fineAt_other (by simp) rfl (by simp)
  | call1 e op p c hp hc =>
    refine fine_update hf rfl rfl ?_
    have := calling_goes cf.srv e op
    rw [hc] at this
    rcases this with h | ⟨c, h⟩
    · exact fine_goes h
    · dsimp only at h; rw [h]; exact fineAt_other (by simp) rfl (by simp)
  | ret e op c hp =>
    refine fine_update hf rfl rfl (fine_goes (.inr (answerCb_write _ _)))
  | data hp =>
    have hn : s.inp ≠ [] := by
      intro hn
      simp [step, hp, hn] at hs
    exact fine_update hf rfl rfl ⟨by simp, fun _ => hn, by simp⟩
  | readIo hp hi => exact fine_update hf rfl rfl ⟨by simp, fun _ => (hf.at' t).2.1 (by rw [hp]; rfl), by simp⟩
  | quiet a p hp =>
    refine fine_update hf rfl rfl ?_
    have g := (hf.at' t).2.1
    generalize s.pc t = q at hp g
    cases hp with
    | recv1 => exact ⟨by simp, fun _ => g rfl, by simp⟩
    | read1 => exact ⟨by simp, fun _ => g rfl, by simp⟩
    | _ => exact fineAt_other (by simp) rfl (by simp)
  | _ => exact hu rfl rfl (by simp) rfl (by simp)

theorem locks_fine_run {cf : Conf} : ∀ (acts : List (Nat × Act)) (s s' : St), Locks s → Fine s → run cf s acts = some s' → Locks s' ∧ Fine s'
  | [], s, s', h1, h2, h => by cases h; exact ⟨h1, h2⟩
  | (t, a) :: acts, s, s', h1, h2, h => by
    unfold run at h
    split at h
    · cases h
    · rename_i s1 hs
      exact locks_fine_run acts s1 s' (locks_step h1 (step_moves hs)) (fine_step h1 h2 hs) h

theorem ends_any {cf : Conf} {t : Nat} {s : St} (hk : Locks s) (hf : Fine s) (hi : s.io = none ∨ s.io = some t) : Ends cf t s := by
  have hio : holdsIo (s.pc t) = false → s.io = none := by
    intro h
    rcases hi with hi | hi
    · exact hi
    · rw [(hk t).2.2 hi] at h; cases h
  obtain ⟨g1, g2, g3⟩ := hf.at' t
  cases hp : s.pc t with
  | idle => exact ends_idle hp (hio (by rw [hp]; rfl))
  | poll => exact ends_poll hf.logs hp (hio (by rw [hp]; rfl))
  | pollLock => exact ends_pollLock hf.logs hp (hio (by rw [hp]; rfl))
  | polling => exact ends_polling hf.logs hp
  | recv => exact ends_recv hf.logs (g2 (by rw [hp]; rfl)) hp (hio (by rw [hp]; rfl))
  | read => exact ends_read hf.logs (g2 (by rw [hp]; rfl)) hp (hio (by rw [hp]; rfl))
  | readLock => exact ends_readLock hf.logs (g2 (by rw [hp]; rfl)) hp (hio (by rw [hp]; rfl))
  | reading => exact ends_reading hf.logs (g2 (by rw [hp]; rfl)) hp
  | parse r => exact ends_parse (g3 r hp) hp (hio (by rw [hp]; rfl))
  | call e op => exact ends_call hp (hio (by rw [hp]; rfl))
  | inCb e op c => exact ends_inCb hp (hio (by rw [hp]; rfl))
  | write a m => exact ends_write hp (hio (by rw [hp]; rfl))
  | writeLock a m => exact ends_writeLock hp (hio (by rw [hp]; rfl))
  | writing a m cur rest ok => exact ends_writing rest cur s hp
  | wrote a ok => exact ends_wrote hp (hio (by rw [hp]; rfl))
  | unlock => exact ends_unlock hp (hio (by rw [hp]; rfl))
  | ub => exact absurd hp g1

/-- All threads get to the end, without anything going wrong. -/
def AllEnd (cf : Conf) (s : St) (P : St → Prop) : Prop :=
  ∃ more s', (∀ x ∈ more, Smooth x.2) ∧ run cf s more = some s' ∧ (∀ t, s'.pc t = .idle) ∧ P s'

theorem all_end_none {cf : Conf} : ∀ (l : List Nat) (s : St), Locks s → Fine s → s.io = none → (∀ t, t ∉ l → s.pc t = .idle) → AllEnd cf s fun s' => s'.inp <:+ s.inp
  | [], s, _, _, _, hl => ⟨[], s, by simp, rfl, fun t => hl t (by simp), List.suffix_refl _⟩
  | u :: l, s, hk, hf, hi, hl => by
    obtain ⟨m1, s1, h1, h2, h3, h4, h5⟩ := ends_any hk hf (t := u) (cf := cf) (.inl hi)
    obtain ⟨hk1, hf1⟩ := locks_fine_run m1 s s1 hk hf h2
    obtain ⟨m2, s2, g1, g2, g3, g4⟩ := all_end_none l s1 hk1 hf1 h4 (fun t ht => by
      by_cases e : t = u
      · rw [e]; exact h3
      · rw [run_pc m1 s s1 h2 (fun x hx hxt => e (by rw [← hxt, (h1 x hx).1])), hl t (by simp [e, ht])])
    refine ⟨m1 ++ m2, s2, fun x hx => ?_, by rw [run_append, h2]; exact g2, g3, g4.trans h5⟩
    rcases List.mem_append.1 hx with hx | hx
    · exact (h1 x hx).2
    · exact g1 x hx

theorem all_end {cf : Conf} (l : List Nat) (s : St) (hk : Locks s) (hf : Fine s) (hl : ∀ t, t ∉ l → s.pc t = .idle) : AllEnd cf s fun s' => s'.inp <:+ s.inp := by
  cases hi : s.io with
  | none => exact all_end_none l s hk hf hi hl
  | some u =>
    obtain ⟨m1, s1, h1, h2, h3, h4, h5⟩ := ends_any hk hf (t := u) (cf := cf) (.inr hi)
    obtain ⟨hk1, hf1⟩ := locks_fine_run m1 s s1 hk hf h2
    obtain ⟨m2, s2, g1, g2, g3, g4⟩ := all_end_none (cf := cf) l s1 hk1 hf1 h4 (fun t ht => by
      by_cases e : t = u
      · rw [e]; exact h3
      · rw [run_pc m1 s s1 h2 (fun x hx hxt => e (by rw [← hxt, (h1 x hx).1])), hl t ht])
    refine ⟨m1 ++ m2, s2, fun x hx => ?_, by rw [run_append, h2]; exact g2, g3, g4.trans h5⟩
    rcases List.mem_append.1 hx with hx | hx
    · exact (h1 x hx).2
    · exact g1 x hx

/-- A thread that is idle reads the next message and does everything about it. -/
theorem serve_one {cf : Conf} (t : Nat) {s : St} (hk : Locks s) (hf : Fine s) (hidle : ∀ u, s.pc u = .idle) (hr : s.status = .running) {r : Read} {rest : List Read}
    (hs : s.inp = r :: rest) : ∃ more s', (∀ x ∈ more, x.1 = t ∧ Smooth x.2) ∧ run cf s more = some s' ∧ (∀ u, s'.pc u = .idle) ∧ s'.inp <:+ rest := by
  have hio : s.io = none := by
    cases h : s.io with
    | none => rfl
    | some u => have := (hk u).2.2 h; rw [hidle u] at this; cases this
  have hrpc : s.rpc = none := by
    cases h : s.rpc with
    | none => rfl
    | some u => have := (hk u).1.2 h; rw [hidle u] at this; cases this
  have ho : s.open = true := (open_eq s).2 (.inl hr)
  let q : St := readEnd { s with rpc := some t, io := some t } r rest
  have hq : ∃ s1, run cf s [(t, .poll), (t, .go), (t, .lock), (t, .data), (t, .go), (t, .go), (t, .lock), (t, .go)] = some s1 ∧ s1.pc t = .parse r ∧ s1.io = none ∧ s1.inp = rest := by
    unfold St.open at ho
    cases r with
    | failed st re => cases st <;> simp [run, step, hidle, hio, hrpc, hr, hs, St.at, St.open, readEnd]
    | _ => simp [run, step, hidle, hio, hrpc, hr, hs, St.at, St.open, readEnd]
  obtain ⟨s1, h1, h2, h3, h4⟩ := hq
  obtain ⟨m, s', g1, g2, g3, g4, g5⟩ := ends_parse (hf.logs r (by simp [hs])) h2 h3 (cf := cf)
  have hown : ∀ x ∈ [(t, Act.poll), (t, .go), (t, .lock), (t, .data), (t, .go), (t, .go), (t, .lock), (t, .go)] ++ m, x.1 = t ∧ Smooth x.2 := by
    intro x hx
    rcases List.mem_append.1 hx with hx | hx
    · simp only [List.mem_cons, List.not_mem_nil, or_false] at hx
      rcases hx with rfl | rfl | rfl | rfl | rfl | rfl | rfl | rfl <;> exact ⟨rfl, trivial⟩
    · exact g1 x hx
  have hrun : run cf s ([(t, Act.poll), (t, .go), (t, .lock), (t, .data), (t, .go), (t, .go), (t, .lock), (t, .go)] ++ m) = some s' := by
    rw [run_append, h1]; exact g2
  refine ⟨_, s', hown, hrun, fun u => ?_, by rw [← h4]; exact g5⟩
  by_cases e : u = t
  · rw [e]; exact g3
  · rw [run_pc _ s s' hrun (fun x hx hxu => e (by rw [← hxu, (hown x hx).1]))]; exact hidle u

theorem serve_all {cf : Conf} (t : Nat) : ∀ (n : Nat) (s : St), s.inp.length ≤ n → Locks s → Fine s → (∀ u, s.pc u = .idle) →
    AllEnd cf s fun s' => s'.status = .running → s'.inp = []
  | 0, s, hn, hk, hf, hi => ⟨[], s, by simp, rfl, hi, fun _ => List.length_eq_zero_iff.1 (Nat.le_zero.1 hn)⟩
  | n + 1, s, hn, hk, hf, hi => by
    by_cases hr : s.status = .running
    · cases hs : s.inp with
      | nil => exact ⟨[], s, by simp, rfl, hi, fun _ => hs⟩
      | cons r rest =>
        obtain ⟨m1, s1, h1, h2, h3, h4⟩ := serve_one t hk hf hi hr hs (cf := cf)
        obtain ⟨hk1, hf1⟩ := locks_fine_run m1 s s1 hk hf h2
        obtain ⟨m2, s2, g1, g2, g3, g4⟩ := serve_all (cf := cf) t n s1 (by have := h4.length_le; rw [hs] at hn; simp at hn; omega) hk1 hf1 h3
        refine ⟨m1 ++ m2, s2, fun x hx => ?_, by rw [run_append, h2]; exact g2, g3, g4⟩
        rcases List.mem_append.1 hx with hx | hx
        · exact (h1 x hx).2
        · exact g1 x hx
    · exact ⟨[], s, by simp, rfl, hi, fun h => absurd h hr⟩

/-! ## Sessions that go on -/

/-- The session runs and no message was lost. -/
structure Going (s : St) : Prop where
  status : s.status = .running
  reason : s.reason = tNone
  wrote : ∀ t a, s.pc t ≠ .wrote a false
  inp : ∀ r ∈ s.inp, ∀ re, r ≠ .failed .invalid re

theorem going_update {s s1 : St} {t : Nat} {p : Pc} (h : Going s) (hpc : s1.pc = s.pc) (hinp : s1.inp = s.inp) (hs : s1.status = .running) (hr : s1.reason = tNone)
    (hp : ∀ a, p ≠ .wrote a false) : Going (s1.at t p) where
  status := hs
  reason := hr
  wrote := fun u a => by
    rw [at_pc, hpc]
    split
    · exact hp a
    · exact h.wrote u a
  inp := fun r hm => h.inp r (by rw [← hinp]; exact hm)

theorem goes_wrote {p : Pc} (h : p = .unlock ∨ ∃ a m, p = .write a m) (a : Caller) : p ≠ .wrote a false := by
  rcases h with rfl | ⟨_, _, rfl⟩ <;> simp

theorem parsed_wrote (srv : Srv) (v11 : Bool) (r : Read) (a : Caller) : parsed srv v11 r ≠ .wrote a false := by
  cases r with
  | failed _ _ => simp [parsed]
  | busy => simp [parsed]
  | frame => exact goes_wrote (answerErr_goes none (mkErr .malformedMsg .rpc none none)) a
  | parsed e op =>
    unfold parsed
    dsimp only
    split
    · simp
    · exact goes_wrote (answerErr_goes _ _) a
  | rejected envp e =>
    unfold parsed
    dsimp only
    split
    · simp
    · exact goes_wrote (answerErr_goes _ _) a

theorem calling_wrote (srv : Srv) (e : Envp) (op : ServerRpc.Op) (a : Caller) : (calling srv e op).1 ≠ .wrote a false := by
  rcases calling_goes srv e op with h | ⟨c, h⟩
  · exact goes_wrote h a
  · rw [h]; simp

theorem going_step {cf : Conf} {s : St} {t : Nat} {a : Act} {s' : St} (hcb : KeepRunning cf.srv) (ha : Harmless a) (h : Going s) (hs : step cf s t a = some s') :
    Going s' := by
  have ho : s.open = true := (open_eq s).2 (.inl h.status)
  have hu : ∀ {s1 : St} {p : Pc}, s1.pc = s.pc → s1.inp = s.inp → s1.status = s.status → s1.reason = s.reason → (∀ a, p ≠ .wrote a false) → Going (s1.at t p) :=
    fun h1 h2 h3 h4 h5 => going_update h h1 h2 (h3.trans h.status) (h4.trans h.reason) h5
  cases step_moves hs with
  | setStatus st => simp [Harmless, Smooth] at ha
  | setReason re => simp [Harmless, Smooth] at ha
  | expire => simp [Harmless, Smooth] at ha
  | hup => simp [Harmless, Smooth] at ha
  | fail => simp [Harmless, Smooth] at ha
  | failIgn => simp [Harmless, Smooth] at ha
  | writeLate => simp [Harmless, Smooth] at ha
  | refuse _ _ _ _ _ _ hc => rw [ho] at hc; cases hc
  | refuseIgn _ _ _ _ _ _ hc => rw [ho] at hc; cases hc
  | write2 _ _ _ hc => rw [ho] at hc; cases hc
  | skip => exact h
  | quiet a p hp =>
    refine hu rfl rfl rfl rfl (fun a => ?_)
    generalize s.pc t = q at hp
    cases hp <;> simp
  | read r rest hp hi =>
    have hne := h.inp r (by simp [hi])
    have hre : readEnd s r rest = { s with io := none, inp := rest, got := s.got ++ [r] } := by
      unfold readEnd
      split
      · exact absurd rfl (hne _)
      · rfl
    rw [hre]
    refine ⟨h.status, h.reason, fun u a => ?_, fun x hx => h.inp x (by rw [hi]; exact List.mem_cons_of_mem _ hx)⟩
    rw [at_pc]
    split
    · simp
    · exact h.wrote u a
  | parse r hp => exact hu rfl rfl rfl rfl (parsed_wrote _ _ _)
  | call0 e op p hp hc => exact hu rfl rfl rfl rfl (fun a => by have := calling_wrote cf.srv e op a; rw [hc] at this; exact this)
  | call1 e op p c hp hc => exact hu rfl rfl rfl rfl (fun a => by have := calling_wrote cf.srv e op a; rw [hc] at this; exact this)
  | ret e op c hp =>
    obtain ⟨h1, h2⟩ := hcb c op
    rw [h.status, h.reason]
    exact going_update h rfl rfl h1 h2 (goes_wrote (.inr (answerCb_write _ _)))
  | finish _ _ ok _ =>
    rw [ho]
    exact hu rfl rfl rfl rfl (by simp)
  | wroteRecv hp => exact absurd hp (h.wrote t _)
  | wroteEnd ok hp =>
    have hr := h.reason
    have : s.status = .invalid := by
      have := congrArg (Option.map St.status) hs
      simpa [step, hp, hr, St.at] using this
    rw [h.status] at this; cases this
  | _ => exact hu rfl rfl rfl rfl (by simp)

theorem going_run {cf : Conf} (hcb : KeepRunning cf.srv) : ∀ (acts : List (Nat × Act)) (s s' : St), (∀ x ∈ acts, Harmless x.2) → Going s → run cf s acts = some s' → Going s'
  | [], s, s', _, h, hr => by cases hr; exact h
  | (t, a) :: acts, s, s', ha, h, hr => by
    unfold run at hr
    split at hr
    · cases hr
    · rename_i s1 hs
      exact going_run hcb acts s1 s' (fun x hx => ha x (List.mem_cons_of_mem _ hx)) (going_step hcb (ha (t, a) (by simp)) h hs) hr

end Verif.ManyThreads
