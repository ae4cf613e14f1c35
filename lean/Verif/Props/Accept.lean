import Verif.Lemmas.Accept

/-!
# Properties of accepting connections (C23, C85)
-/

namespace Verif.Props
open Verif.Accept

/-! ## The world: connections waiting at sockets -/

/-- The listening sockets and the connections waiting at each socket, oldest first. -/
structure Waiting where
  binds : List Bind
  pend : Int → List Nat

/-- What happens: a connection arrives at a socket; accept is called, where poll(2) may fail or report other events, accept(2) and what follows may fail;
an endpoint gets a new listening socket. -/
inductive Event | arrive (sock : Int) (c : Nat) | call (pollOk : Bool) (other : Int → Bool) (acc post : Bool) | relisten (i : Nat) (sock : Int)

/-- Results of a call: a connection with the index of its endpoint, nothing within the timeout, an error, waiting for ever in accept(2), undefined behaviour. -/
inductive Got | conn (i c : Nat) | timeout | error | blocked | ub
  deriving DecidableEq, Repr

/-- One call: accept(2) takes the oldest connection of the socket and blocks if there is none. -/
def callOnce (w : Waiting) (pollOk : Bool) (other : Int → Bool) (acc post : Bool) : Got × Waiting :=
  match choose (if pollOk then some (fun fd => ⟨decide (w.pend fd ≠ []), other fd⟩) else none) w.binds with
  | none => (.ub, w)
  | some (bs, .timeout) => (.timeout, { w with binds := bs })
  | some (bs, .error) => (.error, { w with binds := bs })
  | some (bs, .at i) =>
    match bs[i]? with
    | none => (.ub, w)
    | some b =>
      match w.pend b.sock with
      | [] => (.blocked, { w with binds := bs })
      | c :: rest =>
        if !acc then (.error, { w with binds := bs })
        else (if post then .conn i c else .error, ⟨bs, fun s => if s = b.sock then rest else w.pend s⟩)

/-- One event. -/
def event (w : Waiting) : Event → Got × Waiting
  | .arrive s c => (.timeout, { w with pend := fun x => if x = s then w.pend s ++ [c] else w.pend x })
  | .call p o a q => callOnce w p o a q
  | .relisten i s => (.timeout, { w with binds := relisten i s w.binds })

/-- The state after events. -/
def after (w : Waiting) (es : List Event) : Waiting := es.foldl (fun w e => (event w e).2) w

/-- The results of events. -/
def results : Waiting → List Event → List Got
  | _, [] => []
  | w, e :: es => (event w e).1 :: results (event w e).2 es

/-- Different endpoints listen on different sockets. -/
def DistinctSocks (bs : List Bind) : Prop := ∀ (i j : Nat) (a b : Bind), bs[i]? = some a → bs[j]? = some b → 0 ≤ a.sock → a.sock = b.sock → i = j

/-- The server starts without remembered events. -/
def Fresh (bs : List Bind) : Prop := ∀ b ∈ bs, b.pollin = false

/-- No endpoint gets a new socket. -/
def NoRelisten (es : List Event) : Prop := ∀ e ∈ es, ∀ i s, e ≠ .relisten i s

/-! ## Proofs -/

/-- Remembered events are true; endpoints keep their sockets. -/
structure Good (bs0 : List Bind) (w : Waiting) : Prop where
  socks : w.binds.map Bind.sock = bs0.map Bind.sock
  marks : ∀ (i : Nat) (b : Bind), w.binds[i]? = some b → b.marked = true → w.pend b.sock ≠ []

theorem good_distinct {bs0 : List Bind} {w : Waiting} (hd : DistinctSocks bs0) (h : Good bs0 w) : DistinctSocks w.binds := by
  intro i j a b ha hb hv hab
  have key : ∀ (i : Nat) (a : Bind), w.binds[i]? = some a → ∃ a0, bs0[i]? = some a0 ∧ a0.sock = a.sock := by
    intro i a ha
    have h1 : (w.binds.map Bind.sock)[i]? = some a.sock := by simp [ha]
    rw [h.socks, List.getElem?_map] at h1
    cases h2 : bs0[i]? with
    | none => rw [h2] at h1; cases h1
    | some a0 => rw [h2] at h1; exact ⟨a0, rfl, by simpa using h1⟩
  obtain ⟨a0, h1, h2⟩ := key i a ha
  obtain ⟨b0, h3, h4⟩ := key j b hb
  exact hd i j a0 b0 h1 h3 (by rw [h2]; exact hv) (by rw [h2, h4]; exact hab)

theorem socks_eq {bs bs' : List Bind} (hl : bs'.length = bs.length) {f : Nat → Bind → Bool}
    (h : ∀ (j : Nat) (b : Bind), bs[j]? = some b → bs'[j]? = some { b with pollin := f j b }) : bs'.map Bind.sock = bs.map Bind.sock := by
  apply List.ext_getElem?
  intro j
  rw [List.getElem?_map, List.getElem?_map]
  cases hb : bs[j]? with
  | none =>
    have : bs'[j]? = none := by rw [List.getElem?_eq_none_iff] at hb ⊢; omega
    simp [this]
  | some b => rw [h j b hb]; rfl

theorem mem_get {bs : List Bind} {b : Bind} (h : b ∈ bs) : ∃ i : Nat, bs[i]? = some b := List.mem_iff_getElem?.mp h

/-- Number of remembered events; of those up to an index. -/
def nmarked (bs : List Bind) : Nat := bs.countP Bind.marked
def markRank (bs : List Bind) (i : Nat) : Nat := (bs.take (i + 1)).countP Bind.marked

/-- Calls until endpoint `i` is served at the latest. -/
def turns (bs : List Bind) (i : Nat) : Nat :=
  if (bs[i]?.map Bind.marked).getD false then markRank bs i else nmarked bs + bs.length + 1

theorem turns_le (bs : List Bind) (i : Nat) : turns bs i ≤ 2 * bs.length + 1 := by
  have h1 : markRank bs i ≤ bs.length := Nat.le_trans List.countP_le_length (by rw [List.length_take]; omega)
  have h2 : nmarked bs ≤ bs.length := List.countP_le_length
  unfold turns
  split <;> omega

theorem take_get {bs : List Bind} {i k : Nat} {b : Bind} (hb : bs[k]? = some b) (h : k ≤ i) : (bs.take (i + 1))[k]? = some b := by
  rw [List.getElem?_take, if_pos (by omega)]; exact hb

/-- One call of a state in which remembered events are true. -/
theorem call_good {bs0 : List Bind} (hd : DistinctSocks bs0) {w : Waiting} (h : Good bs0 w) (p : Bool) (o : Int → Bool) (a q : Bool) :
    Good bs0 (callOnce w p o a q).2 ∧ (callOnce w p o a q).1 ≠ .ub ∧ (callOnce w p o a q).1 ≠ .blocked ∧
    (∀ i c, (callOnce w p o a q).1 = .conn i c → ∃ b rest, w.binds[i]? = some b ∧ 0 ≤ b.sock ∧ w.pend b.sock = c :: rest ∧
      (callOnce w p o a q).2.pend = fun s => if s = b.sock then rest else w.pend s) ∧
    (p = true → a = true → q = true → (∀ s, o s = false) → (∃ b ∈ w.binds, 0 ≤ b.sock ∧ w.pend b.sock ≠ []) → ∃ i c, (callOnce w p o a q).1 = .conn i c) ∧
    (p = true → a = true → q = true → ∀ (i : Nat) b c rest, w.binds[i]? = some b → 0 ≤ b.sock → w.pend b.sock = c :: rest →
      (callOnce w p o a q).1 = .conn i c ∨ ((callOnce w p o a q).2.pend b.sock = c :: rest ∧ turns (callOnce w p o a q).2.binds i < turns w.binds i)) := by
  have hdw := good_distinct hd h
  obtain ⟨bs', ch, e, hch⟩ := choose_spec (fun fd => ⟨decide (w.pend fd ≠ []), o fd⟩) p w.binds
  simp only [callOnce, e]
  cases hch with
  | leftover k bk hk hm hfirst =>
    have hk' : (w.binds.modify k fun b => { b with pollin := false })[k]? = some { bk with pollin := false } := by simp [hk]
    have hkv : 0 ≤ bk.sock := by simp [Bind.marked, Bind.valid] at hm; exact hm.1
    obtain ⟨c, rest, hp⟩ := List.exists_cons_of_ne_nil (h.marks k bk hk hm)
    have hsocks : (w.binds.modify k fun b => { b with pollin := false }).map Bind.sock = bs0.map Bind.sock := by
      rw [← h.socks]
      apply List.ext_getElem?
      intro j
      rw [List.getElem?_map, List.getElem?_map, List.getElem?_modify]
      cases w.binds[j]? with
      | none => simp
      | some b => by_cases hj : k = j <;> simp [hj]
    have hold : ∀ (i : Nat) (b : Bind), (w.binds.modify k fun b => { b with pollin := false })[i]? = some b → b.marked = true → i ≠ k ∧ w.binds[i]? = some b := by
      intro i b hb hbm
      by_cases hik : i = k
      · subst hik
        rw [hk'] at hb
        cases hb
        simp [Bind.marked] at hbm
      · rw [List.getElem?_modify_ne _ _ (Ne.symm hik)] at hb
        exact ⟨hik, hb⟩
    have hmarks0 : ∀ (i : Nat) (b : Bind), (w.binds.modify k fun b => { b with pollin := false })[i]? = some b → b.marked = true → w.pend b.sock ≠ [] := by
      intro i b hb hbm
      exact h.marks i b (hold i b hb hbm).2 hbm
    simp only [hk', hp]
    by_cases ha : a = true
    · subst ha
      simp only [Bool.not_true, Bool.false_eq_true, if_false]
      refine ⟨⟨hsocks, ?_⟩, by split <;> simp, by split <;> simp, ?_, ?_, ?_⟩
      · intro i b hb hbm
        obtain ⟨h1, h2⟩ := hold i b hb hbm
        have hbv : 0 ≤ b.sock := by simp [Bind.marked, Bind.valid] at hbm; exact hbm.1
        have : b.sock ≠ bk.sock := fun e => h1 (hdw i k b bk h2 hk hbv e)
        simp only [this, if_false]
        exact h.marks i b h2 hbm
      · intro i c'
        split
        · rintro ⟨⟩; exact ⟨bk, rest, hk, hkv, hp, rfl⟩
        · rintro ⟨⟩
      · intro _ _ hq _ _; exact ⟨k, c, by simp [hq]⟩
      · intro _ _ hq i b c' rest' hb hbv hpb
        by_cases hik : i = k
        · subst hik
          rw [hk] at hb; cases hb
          rw [hp] at hpb; cases hpb
          left; simp [hq]
        · right
          have hne : b.sock ≠ bk.sock := fun e => hik (hdw i k b bk hb hk hbv e)
          refine ⟨by simp [hne, hpb], ?_⟩
          have hmk : bk.marked = true := hm
          have hcount := countP_modify Bind.marked (fun b => { b with pollin := false }) w.binds k bk hk
          have hf : ({ bk with pollin := false } : Bind).marked = false := by simp [Bind.marked]
          simp only [hmk, hf, if_true, Bool.false_eq_true, if_false, Nat.add_zero] at hcount
          unfold turns
          rw [List.getElem?_modify_ne _ _ (Ne.symm hik), hb]
          simp only [Option.map_some, Option.getD_some, List.length_modify]
          by_cases hbm : b.marked = true
          · have hki : k ≤ i := by
              apply Classical.byContradiction
              intro hki
              have := hfirst i (by omega) b hb
              rw [hbm] at this; cases this
            have hc2 := countP_modify Bind.marked (fun b => { b with pollin := false }) (w.binds.take (i + 1)) k bk (take_get hk hki)
            simp only [hmk, hf, if_true, Bool.false_eq_true, if_false, Nat.add_zero] at hc2
            simp only [hbm, if_true, markRank]
            rw [List.take_modify]
            omega
          · simp only [hbm, Bool.false_eq_true, if_false, nmarked]
            omega
    · have ha : a = false := by simpa using ha
      subst ha
      simp only [Bool.not_false, if_true]
      exact ⟨⟨hsocks, hmarks0⟩, by simp, by simp, by simp, by simp, by simp⟩
  | pollError hok hnone =>
    exact ⟨h, by simp, by simp, by simp, by simp [hok], by simp [hok]⟩
  | timeout hok hnone hq =>
    refine ⟨h, by simp, by simp, by simp, ?_, ?_⟩
    · rintro _ _ _ _ ⟨b, hb, hbv, hp⟩
      have := (hq b hb (by simpa using hbv)).1
      simp at this
      exact absurd this hp
    · intro _ _ _ i b c rest hb hbv hp
      have := (hq b (List.mem_of_getElem? hb) (by simpa using hbv)).1
      simp [hp] at this
  | polled _ k bk hok hnone hk hrk hlen hbs' =>
    have hkv : 0 ≤ bk.sock := by simp [ready, Bind.valid] at hrk; exact hrk.1
    have hpk : w.pend bk.sock ≠ [] := by simp [ready, Bind.valid] at hrk; exact hrk.2
    obtain ⟨c, rest, hp⟩ := List.exists_cons_of_ne_nil hpk
    have hk' : bs'[k]? = some { bk with pollin := bk.pollin } := by rw [hbs' k bk hk]; simp
    have hsocks : bs'.map Bind.sock = bs0.map Bind.sock := by rw [← h.socks]; exact socks_eq hlen hbs'
    have hold : ∀ (i : Nat) (b : Bind), bs'[i]? = some b → b.marked = true → i ≠ k ∧ ∃ b0, w.binds[i]? = some b0 ∧ b0.sock = b.sock ∧ w.pend b.sock ≠ [] := by
      intro i b hb hbm
      cases hb0 : w.binds[i]? with
      | none =>
        rw [List.getElem?_eq_none_iff] at hb0
        have : bs'[i]? = none := by rw [List.getElem?_eq_none_iff]; omega
        rw [this] at hb; cases hb
      | some b0 =>
        rw [hbs' i b0 hb0] at hb
        cases hb
        have h1 := hnone b0 (List.mem_of_getElem? hb0)
        simp only [Bind.marked, Bind.valid, Bool.and_eq_true, Bool.or_eq_true, bne_iff_ne, ne_eq, Option.some.injEq, ready, decide_eq_true_eq] at hbm
        simp only [Bind.marked, Bind.valid, Bool.and_eq_false_iff, decide_eq_false_iff_not] at h1
        rcases hbm.2 with hbm2 | hbm2
        · rcases h1 with h1 | h1
          · exact absurd hbm.1 h1
          · rw [h1] at hbm2; cases hbm2
        · exact ⟨fun e => hbm2.2 e.symm, b0, rfl, rfl, by simpa using hbm2.1.2⟩
    simp only [hk', hp]
    by_cases ha : a = true
    · subst ha
      simp only [Bool.not_true, Bool.false_eq_true, if_false]
      refine ⟨⟨hsocks, ?_⟩, by split <;> simp, by split <;> simp, ?_, ?_, ?_⟩
      · intro i b hb hbm
        obtain ⟨h1, b0, h2, h3, h4⟩ := hold i b hb hbm
        have hbv : 0 ≤ b.sock := by simp [Bind.marked, Bind.valid] at hbm; exact hbm.1
        have : b.sock ≠ bk.sock := fun e => h1 (hdw i k b0 bk h2 hk (by rw [h3]; exact hbv) (by rw [h3]; exact e))
        simp only [this, if_false]
        exact h4
      · intro i c'
        split
        · rintro ⟨⟩; exact ⟨bk, rest, hk, hkv, hp, rfl⟩
        · rintro ⟨⟩
      · intro _ _ hq _ _; exact ⟨k, c, by simp [hq]⟩
      · intro _ _ hq i b c' rest' hb hbv hpb
        by_cases hik : i = k
        · subst hik
          rw [hk] at hb; cases hb
          rw [hp] at hpb; cases hpb
          left; simp [hq]
        · right
          have hne : b.sock ≠ bk.sock := fun e => hik (hdw i k b bk hb hk hbv e)
          refine ⟨by simp [hne, hpb], ?_⟩
          have h1 : b.marked = false := hnone b (List.mem_of_getElem? hb)
          have h2 : ({ b with pollin := b.pollin || (ready (fun fd => ⟨decide (w.pend fd ≠ []), o fd⟩) b && some k != some i) } : Bind).marked = true := by
            simp [Bind.marked, Bind.valid, ready, hbv, hpb, Ne.symm hik]
          unfold turns
          rw [hbs' i b hb, hb]
          simp only [Option.map_some, Option.getD_some, h1, h2, if_true, Bool.false_eq_true, if_false]
          have : markRank bs' i ≤ bs'.length := Nat.le_trans List.countP_le_length (by rw [List.length_take]; omega)
          omega
    · have ha : a = false := by simpa using ha
      subst ha
      simp only [Bool.not_false, if_true]
      exact ⟨⟨hsocks, fun i b hb hbm => by obtain ⟨_, _, _, _, h4⟩ := hold i b hb hbm; exact h4⟩, by simp, by simp, by simp, by simp, by simp⟩
  | other _ b1 hok hnone hb1 hb1v hb1o hlen hbs' =>
    have hsocks : bs'.map Bind.sock = bs0.map Bind.sock := by rw [← h.socks]; exact socks_eq (f := fun j b => b.pollin || ready _ b) hlen hbs'
    refine ⟨⟨hsocks, ?_⟩, by simp, by simp, by simp, ?_, ?_⟩
    · intro i b hb hbm
      cases hb0 : w.binds[i]? with
      | none =>
        rw [List.getElem?_eq_none_iff] at hb0
        have : bs'[i]? = none := by rw [List.getElem?_eq_none_iff]; omega
        rw [this] at hb; cases hb
      | some b0 =>
        rw [hbs' i b0 hb0] at hb
        cases hb
        have h1 := hnone b0 (List.mem_of_getElem? hb0)
        simp only [Bind.marked, Bind.valid, Bool.and_eq_true, Bool.or_eq_true, ready, decide_eq_true_eq] at hbm
        simp only [Bind.marked, Bind.valid, Bool.and_eq_false_iff, decide_eq_false_iff_not] at h1
        rcases hbm.2 with hbm2 | hbm2
        · rcases h1 with h1 | h1
          · exact absurd hbm.1 h1
          · rw [h1] at hbm2; cases hbm2
        · exact hbm2.2
    · intro _ _ _ ho _
      simp [ho] at hb1o
    · intro _ _ _ i b c rest hb hbv hpb
      right
      refine ⟨hpb, ?_⟩
      have h1 : b.marked = false := hnone b (List.mem_of_getElem? hb)
      have h2 : ({ b with pollin := b.pollin || ready (fun fd => ⟨decide (w.pend fd ≠ []), o fd⟩) b } : Bind).marked = true := by
        simp [Bind.marked, Bind.valid, ready, hbv, hpb]
      unfold turns
      rw [hbs' i b hb, hb]
      simp only [Option.map_some, Option.getD_some, h1, h2, if_true, Bool.false_eq_true, if_false]
      have : markRank bs' i ≤ bs'.length := Nat.le_trans List.countP_le_length (by rw [List.length_take]; omega)
      omega

theorem event_good {bs0 : List Bind} (hd : DistinctSocks bs0) {w : Waiting} (h : Good bs0 w) (e : Event) (he : ∀ i s, e ≠ .relisten i s) :
    Good bs0 (event w e).2 ∧ (event w e).1 ≠ .ub ∧ (event w e).1 ≠ .blocked := by
  cases e with
  | arrive s c =>
    refine ⟨⟨h.socks, ?_⟩, by simp [event], by simp [event]⟩
    intro i b hb hm
    have := h.marks i b hb hm
    simp only [event]
    split
    · simp
    · exact this
  | call p o a q => have := call_good hd h p o a q; exact ⟨this.1, this.2.1, this.2.2.1⟩
  | relisten i s => exact absurd rfl (he i s)

theorem good_run {bs0 : List Bind} (hd : DistinctSocks bs0) : ∀ (es : List Event) (w : Waiting), Good bs0 w → NoRelisten es →
    Good bs0 (after w es) ∧ .ub ∉ results w es ∧ .blocked ∉ results w es
  | [], w, h, _ => ⟨h, by simp [results], by simp [results]⟩
  | e :: es, w, h, hn => by
    obtain ⟨h1, h2, h3⟩ := event_good hd h e (hn e List.mem_cons_self)
    obtain ⟨g1, g2, g3⟩ := good_run hd es _ h1 (fun e he => hn e (List.mem_cons_of_mem _ he))
    simp only [results, List.mem_cons, not_or]
    exact ⟨g1, ⟨h2.symm, g2⟩, ⟨h3.symm, g3⟩⟩

theorem good_fresh {bs : List Bind} (hf : Fresh bs) (pend : Int → List Nat) : Good bs ⟨bs, pend⟩ :=
  ⟨rfl, fun i b hb hm => by simp [Bind.marked, hf b (List.mem_of_getElem? hb)] at hm⟩

/-- C23: after any history of arrivals and calls, successful or failed, on any listening sockets: a connection that is returned is the oldest one waiting at the endpoint whose index is returned,
and exactly it is taken; if any connection waits anywhere, a call without failing system calls returns one at once. -/
theorem accept_right (bs : List Bind) (hd : DistinctSocks bs) (hf : Fresh bs) (pend : Int → List Nat) (es : List Event) (hn : NoRelisten es) (p : Bool) (o : Int → Bool) (a q : Bool) :
    (∀ i c, (event (after ⟨bs, pend⟩ es) (.call p o a q)).1 = .conn i c → ∃ b rest, bs[i]?.map Bind.sock = some b ∧ 0 ≤ b ∧ (after ⟨bs, pend⟩ es).pend b = c :: rest ∧
      (event (after ⟨bs, pend⟩ es) (.call p o a q)).2.pend = fun s => if s = b then rest else (after ⟨bs, pend⟩ es).pend s) ∧
    (p = true → a = true → q = true → (∀ s, o s = false) → (∃ b ∈ bs, 0 ≤ b.sock ∧ (after ⟨bs, pend⟩ es).pend b.sock ≠ []) →
      ∃ i c, (event (after ⟨bs, pend⟩ es) (.call p o a q)).1 = .conn i c) := by
  obtain ⟨hg, -, -⟩ := good_run hd es ⟨bs, pend⟩ (good_fresh hf pend) hn
  obtain ⟨-, -, -, h1, h2, -⟩ := call_good hd hg p o a q
  refine ⟨?_, ?_⟩
  · intro i c hc
    obtain ⟨b, rest, g1, g2, g3, g4⟩ := h1 i c hc
    refine ⟨b.sock, rest, ?_, g2, g3, g4⟩
    rw [← List.getElem?_map, ← hg.socks, List.getElem?_map, g1]; rfl
  · rintro hp ha hq ho ⟨b, hb, hbv, hbp⟩
    apply h2 hp ha hq ho
    have : b.sock ∈ (after ⟨bs, pend⟩ es).binds.map Bind.sock := by rw [hg.socks]; exact List.mem_map_of_mem hb
    obtain ⟨b', hb', hs⟩ := List.mem_map.mp this
    exact ⟨b', hb', by rw [hs]; exact hbv, by rw [hs]; exact hbp⟩

theorem fair_run {bs0 : List Bind} (hd : DistinctSocks bs0) (i : Nat) (s : Int) (c : Nat) (hs : bs0[i]?.map Bind.sock = some s) (hv : 0 ≤ s) :
    ∀ (es : List Event) (w : Waiting), Good bs0 w → NoRelisten es → (∃ rest, w.pend s = c :: rest) → (∀ e ∈ es, ∀ p o a q, e = .call p o a q → p = true ∧ a = true ∧ q = true) →
      turns w.binds i ≤ es.countP (fun e => match e with | .call .. => true | _ => false) → .conn i c ∈ results w es
  | [], w, h, _, ⟨rest, hp⟩, _, ht => by
    exfalso
    have hb : ∃ b, w.binds[i]? = some b ∧ b.sock = s := by
      rw [← List.getElem?_map, ← h.socks, List.getElem?_map] at hs
      cases hb : w.binds[i]? with
      | none => rw [hb] at hs; cases hs
      | some b => rw [hb] at hs; exact ⟨b, rfl, by simpa using hs⟩
    obtain ⟨b, hb, rfl⟩ := hb
    simp only [List.countP_nil, Nat.le_zero] at ht
    unfold turns at ht
    rw [hb] at ht
    simp only [Option.map_some, Option.getD_some] at ht
    split at ht
    · rename_i hm
      have : 0 < markRank w.binds i := by
        unfold markRank
        rw [List.countP_pos_iff]
        exact ⟨b, List.mem_of_getElem? (take_get hb (Nat.le_refl i)), hm⟩
      omega
    · omega
  | e :: es, w, h, hn, ⟨rest, hp⟩, hok, ht => by
    have hn' : NoRelisten es := fun e he => hn e (List.mem_cons_of_mem _ he)
    have hok' : ∀ e ∈ es, ∀ p o a q, e = .call p o a q → p = true ∧ a = true ∧ q = true := fun e he => hok e (List.mem_cons_of_mem _ he)
    have hg := (event_good hd h e (hn e List.mem_cons_self)).1
    simp only [results, List.mem_cons]
    rw [List.countP_cons] at ht
    cases e with
    | relisten j t => exact absurd rfl (hn _ List.mem_cons_self j t)
    | arrive s' c' =>
      right
      refine fair_run hd i s c hs hv es _ hg hn' ?_ hok' (by simpa [event] using ht)
      simp only [event]
      by_cases e : s = s'
      · subst e; exact ⟨rest ++ [c'], by simp [hp]⟩
      · exact ⟨rest, by simp [e, hp]⟩
    | call p o a q =>
      obtain ⟨rfl, rfl, rfl⟩ := hok _ List.mem_cons_self p o a q rfl
      have hb : ∃ b, w.binds[i]? = some b ∧ b.sock = s := by
        rw [← List.getElem?_map, ← h.socks, List.getElem?_map] at hs
        cases hb : w.binds[i]? with
        | none => rw [hb] at hs; cases hs
        | some b => rw [hb] at hs; exact ⟨b, rfl, by simpa using hs⟩
      obtain ⟨b, hb, rfl⟩ := hb
      obtain ⟨-, -, -, -, -, h3⟩ := call_good hd h true o true true
      rcases h3 rfl rfl rfl i b c rest hb hv hp with h4 | ⟨h4, h5⟩
      · left; exact h4.symm
      · right
        refine fair_run hd i b.sock c hs hv es _ hg hn' ⟨rest, h4⟩ hok' ?_
        simp only [if_true] at ht
        simp only [event]
        omega

/-- C23: no connection is starved: whatever else arrives at whatever endpoints, the oldest connection at an endpoint is returned, with the index of this endpoint, by one of the next `2 n + 1` calls
if there are `n` endpoints, even if poll(2) reports other events. -/
theorem accept_fair (bs : List Bind) (hd : DistinctSocks bs) (hf : Fresh bs) (pend : Int → List Nat) (es : List Event) (hn : NoRelisten es) (i : Nat) (s : Int) (c : Nat) (rest : List Nat)
    (hs : bs[i]?.map Bind.sock = some s) (hv : 0 ≤ s) (hp : (after ⟨bs, pend⟩ es).pend s = c :: rest) (es' : List Event) (hn' : NoRelisten es')
    (hok : ∀ e ∈ es', ∀ p o a q, e = .call p o a q → p = true ∧ a = true ∧ q = true) (hl : 2 * bs.length + 1 ≤ es'.countP (fun e => match e with | .call .. => true | _ => false)) :
    .conn i c ∈ results (after ⟨bs, pend⟩ es) es' := by
  obtain ⟨hg, -, -⟩ := good_run hd es ⟨bs, pend⟩ (good_fresh hf pend) hn
  refine fair_run hd i s c hs hv es' _ hg hn' ⟨rest, hp⟩ hok ?_
  have := turns_le (after ⟨bs, pend⟩ es).binds i
  have hlen : (after ⟨bs, pend⟩ es).binds.length = bs.length := by have := congrArg List.length hg.socks; simpa using this
  omega

/-- A call without failures. -/
abbrev good : Event := .call true (fun _ => false) true true

/-- Three endpoints, the second one not listening; a busy first endpoint does not keep the others waiting. -/
example : results ⟨[⟨5, false⟩, ⟨-1, false⟩, ⟨7, false⟩, ⟨9, false⟩], fun s => if s = 5 then [1, 2, 3] else if s = 7 then [4] else if s = 9 then [5] else []⟩
    [good, good, .arrive 5 6, good, good, good, good, good] = [.conn 3 5, .conn 0 1, .timeout, .conn 2 4, .conn 0 2, .conn 0 3, .conn 0 6, .timeout] := by decide +kernel
example : DistinctSocks [⟨5, false⟩, ⟨-1, false⟩, ⟨7, false⟩, ⟨9, false⟩] ∧ Fresh [⟨5, false⟩, ⟨-1, false⟩, ⟨7, false⟩, ⟨9, false⟩] := by
  refine ⟨?_, by simp [Fresh]⟩
  intro i j a b ha hb hv hab
  have hi : i < 4 := (List.getElem?_eq_some_iff.mp ha).1
  have hj : j < 4 := (List.getElem?_eq_some_iff.mp hb).1
  match i, j, hi, hj with
  | 0, 0, _, _ => rfl | 1, 1, _, _ => rfl | 2, 2, _, _ => rfl | 3, 3, _, _ => rfl
  | 0, 1, _, _ | 0, 2, _, _ | 0, 3, _, _ | 1, 0, _, _ | 1, 2, _, _ | 1, 3, _, _ | 2, 0, _, _ | 2, 1, _, _ | 2, 3, _, _ | 3, 0, _, _ | 3, 1, _, _ | 3, 2, _, _ =>
    simp at ha hb; subst ha; subst hb; simp at hab

/-! ## C85: accepting does not block -/

/-- C85: as long as no endpoint gets a new listening socket, accept(2) is called only with a connection waiting, whatever failed before, and no memory outside of the array is read.
Missing: new sockets (`accept_blocks_false`). -/
theorem accept_blocks_partial (bs : List Bind) (hd : DistinctSocks bs) (hf : Fresh bs) (pend : Int → List Nat) (es : List Event) (hn : NoRelisten es) :
    .blocked ∉ results ⟨bs, pend⟩ es ∧ .ub ∉ results ⟨bs, pend⟩ es := by
  obtain ⟨-, h1, h2⟩ := good_run hd es ⟨bs, pend⟩ (good_fresh hf pend) hn
  exact ⟨h2, h1⟩

example : results ⟨[⟨5, false⟩, ⟨7, false⟩, ⟨9, false⟩], fun s => if s = 9 then [] else [1]⟩ [.call false (fun _ => false) true true, .call true (fun s => s == 9) true true, .call true (fun _ => false) false true, good, good] =
    [.error, .error, .error, .conn 1 1, .conn 0 1] := by decide +kernel

/-- C85: connections arrive at both endpoints, one is accepted, then the address of the other endpoint is changed: the next call blocks in accept(2), whatever its timeout. -/
theorem accept_blocks_false : results ⟨[⟨5, false⟩, ⟨7, false⟩], fun s => if s = 5 then [1] else if s = 7 then [2] else []⟩ [good, .relisten 0 8, good] = [.conn 1 2, .timeout, .blocked] := by
  decide +kernel

end Verif.Props
