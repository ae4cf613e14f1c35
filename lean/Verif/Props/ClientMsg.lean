import Verif.Lemmas.ClientMsg
import Verif.Lemmas.Bytes

/-!
# Properties of the messages of a client (C09, C31, C32, C80-C83)
-/

namespace Verif.Props
open Verif.ClientMsg
open Verif.ClientMsg.Spec
open Verif.Hello (Text)

/-! ## C31: the type of a message -/

theorem name_prefix {n w r : Text} {c : Char} (hw : ∀ x ∈ w, x ∉ [' ', '\t', '\n', '\r', '/', '>']) (hc : c ∈ [' ', '\t', '\n', '\r', '/', '>'])
    (h : w.isPrefixOf (n ++ c :: r) = true) : w.isPrefixOf n = true := by
  rw [List.isPrefixOf_iff_prefix] at h ⊢
  induction w generalizing n with
  | nil => exact List.nil_prefix
  | cons a w ih =>
    cases n with
    | nil =>
      obtain ⟨s, hs⟩ := h
      simp only [List.nil_append, List.cons_append, List.cons.injEq] at hs
      exact absurd hc (by rw [← hs.1]; exact hw a List.mem_cons_self)
    | cons b n =>
      rw [List.cons_append, List.cons_prefix_cons] at h
      rw [List.cons_prefix_cons]
      exact ⟨h.1, ih (fun x hx => hw x (List.mem_cons_of_mem _ hx)) h.2⟩

theorem name_first {n u w : Text} {c : Char} {x : Char} (hn : Name n) (hu : u = x :: w) (hx : x ∈ ['!', '?']) (r : Text) : u.isPrefixOf (n ++ c :: r) = false := by
  subst hu
  obtain ⟨h1, h2⟩ := hn
  obtain ⟨a, n', rfl⟩ := List.exists_cons_of_ne_nil h1
  have ha := h2 a List.mem_cons_self
  rw [Bool.eq_false_iff]
  intro h
  rw [List.isPrefixOf_iff_prefix, List.cons_append, List.cons_prefix_cons] at h
  obtain ⟨rfl, -⟩ := h
  simp at hx ha
  rcases hx with rfl | rfl <;> simp at ha

/-- C31: after white space, a declaration and comments (not beginning with what looks like their end), an `rpc-reply` is recognized as a reply, a
`notification` as a notification, and elements whose names do not begin so as neither.  Missing: names with a namespace prefix, names only beginning so. -/
theorem msg_type_partial (n t : Text) (hn : Name n) (h : Root Plain n t) :
    (∀ k, n = element k → getMsgType t = some k) ∧
    ((∀ k s, n ≠ element k ++ s) → getMsgType t = none) := by
  obtain ⟨p, rest, hp, ⟨c, r, rfl, hc⟩, rfl⟩ := h
  rw [getMsgType_prolog (fun x hx => hx) hp, getMsgType_root _ (name_first hn (x := '!') (w := ['-', '-']) (by decide) (by simp) r) (name_first hn (x := '?') (w := ['x', 'm', 'l']) (by decide) (by simp) r)]
  constructor
  · intro k hk
    subst hk
    cases k with
    | reply => rw [if_pos]; rw [List.isPrefixOf_iff_prefix]; exact ⟨_, rfl⟩
    | notif =>
      rw [if_neg, if_pos]
      · rw [List.isPrefixOf_iff_prefix]; exact ⟨_, rfl⟩
      · intro h
        have := name_prefix (w := "rpc-reply".toList) (by decide) hc h
        exact absurd this (by decide)
  · intro hne
    have key : ∀ k, (element k).isPrefixOf (n ++ c :: r) = false := by
      intro k
      rw [Bool.eq_false_iff]
      intro hpre
      have := name_prefix (by cases k <;> decide) hc hpre
      rw [List.isPrefixOf_iff_prefix] at this
      obtain ⟨s, hs⟩ := this
      exact hne k s hs.symm
    have k1 : "rpc-reply".toList.isPrefixOf (n ++ c :: r) = false := key .reply
    have k2 : "notification".toList.isPrefixOf (n ++ c :: r) = false := key .notif
    rw [if_neg (fun h => Bool.false_ne_true (k1.symm.trans h)), if_neg (fun h => Bool.false_ne_true (k2.symm.trans h))]

example : Root Plain "notification".toList "<?xml version=\"1.0\"?>\n<!-- a --><notification/>".toList :=
  ⟨"<?xml version=\"1.0\"?>\n<!-- a -->".toList, "/>".toList,
    .decl " version=\"1.0\"".toList _ (by
      intro a b h
      have := congrArg (fun l : Text => l.contains '?') h
      simp at this) (.space '\n' _ (by simp) (.comment " a ".toList _ (by
      intro a b h
      have := congrArg (fun l : Text => l.contains '-') h
      simp at this) ⟨by simp, by simp⟩ .nil)), ⟨'/', ">".toList, rfl, by simp⟩, rfl⟩
example : getMsgType "<?xml version=\"1.0\"?>\n<!-- a --><notification/>".toList = some .notif := by decide +kernel

/-- C31: replies with a namespace prefix, as any XML writer may produce, and replies after a comment beginning with `>` are refused. -/
theorem msg_type_false : ∃ t u, t = "<nc:rpc-reply xmlns:nc=\"urn:ietf:params:xml:ns:netconf:base:1.0\" message-id=\"1\"><nc:ok/></nc:rpc-reply>".toList ∧
    getMsgType t = none ∧ Root (fun _ => True) "rpc-reply".toList u ∧ getMsgType u = none :=
  ⟨_, "<!-->--><rpc-reply>".toList, rfl, by decide +kernel,
    ⟨"<!-->-->".toList, ">".toList, .comment ">".toList [] (by
      intro a b h
      have := congrArg (fun l : Text => l.contains '-') h
      simp at this) trivial .nil, ⟨'>', [], rfl, by simp⟩, rfl⟩, by decide +kernel⟩

/-! ## C31: the buffer -/

/-- All messages among what arrives are documents with the element of their type. -/
def Shaped (as : List Arr) : Prop := ∀ k t, Arr.m k t ∈ as → Root Plain (element k) t

theorem shaped_type {k : Kind} {t : Text} (h : Root Plain (element k) t) : getMsgType t = some k :=
  (msg_type_partial _ _ (by cases k <;> exact ⟨by decide, by decide⟩) h).1 k rfl

/-- One call. -/
theorem recv_step (k : Kind) (l : Lock) (c : Cl) (as : List Arr) (hs : Shaped as) (hw : c.wire = as.map input) :
    ∃ n, n ≤ as.length ∧ (recvMsg k l c).2.wire = (as.drop n).map input ∧ (recvMsg k l c).1 ≠ .crash ∧
      (∀ k', delivered k' [(recvMsg k l c).1] ++ buffered k' (recvMsg k l c).2.msgs = buffered k' c.msgs ++ texts k' (as.take n)) ∧
      (l = .got → 0 < (buffered k c.msgs).length + as.length →
        (buffered k (recvMsg k l c).2.msgs).length + (as.drop n).length < (buffered k c.msgs).length + as.length) := by
  cases l with
  | timeout => exact ⟨0, by omega, by simpa [recvMsg] using hw, by simp [recvMsg], by simp [recvMsg, delivered, texts], by simp⟩
  | failed => exact ⟨0, by omega, by simpa [recvMsg] using hw, by simp [recvMsg], by simp [recvMsg, delivered, texts], by simp⟩
  | got =>
    simp only [recvMsg]
    cases hb : takeBuffered k c.msgs with
    | some x =>
      obtain ⟨t, q⟩ := x
      obtain ⟨h1, h2⟩ := takeBuffered_some hb
      refine ⟨0, by omega, by simpa using hw, by simp, ?_, ?_⟩
      · intro k'
        by_cases hk : k' = k
        · subst hk; simp [delivered, texts, h1]
        · have : ¬ k = k' := fun h => hk h.symm
          simp [delivered, texts, h2 k' hk, this]
      · intro _ _
        simp [h1]
    | none =>
      have hn := takeBuffered_none hb
      cases as with
      | nil =>
        rw [hw]
        exact ⟨0, by simp, by simpa using hw, by simp, by simp [delivered, texts], by simp [hn]⟩
      | cons a as =>
        rw [hw]
        cases a with
        | idle => exact ⟨1, by simp, by simp [input], by simp [input], by simp [input, delivered, texts], by simp [input, hn]⟩
        | failure => exact ⟨1, by simp, by simp [input], by simp [input], by simp [input, delivered, texts], by simp [input, hn]⟩
        | m k1 t =>
          have ht := shaped_type (hs k1 t (by simp))
          simp only [List.map_cons, input, ht]
          by_cases hk : k1 = k
          · subst hk
            rw [if_pos rfl]
            refine ⟨1, by simp, by simp, by simp, ?_, by simp [hn]⟩
            intro k'
            by_cases hk : k1 = k'
            · subst hk; simp [delivered, texts, hn]
            · simp [delivered, texts, hk]
          · rw [if_neg hk]
            refine ⟨1, by simp, by simp, by simp, ?_, ?_⟩
            · intro k'
              by_cases hk' : k1 = k'
              · subst hk'; simp [delivered, texts, buffered]
              · simp [delivered, texts, buffered, hk']
            · simp [buffered, hk]

theorem shaped_drop {as : List Arr} (h : Shaped as) (n : Nat) : Shaped (as.drop n) := fun k t ht => h k t (List.mem_of_mem_drop ht)

theorem texts_append (k : Kind) : ∀ as bs : List Arr, texts k (as ++ bs) = texts k as ++ texts k bs
  | [], _ => rfl
  | a :: as, bs => by
    rw [List.cons_append]
    cases a with
    | m k1 t => simp only [texts]; split <;> simp [texts_append k as bs]
    | _ => simpa [texts] using texts_append k as bs

theorem delivered_append (k : Kind) : ∀ as bs : List Out, delivered k (as ++ bs) = delivered k as ++ delivered k bs
  | [], _ => rfl
  | a :: as, bs => by
    rw [List.cons_append]
    cases a with
    | got k1 t =>
      cases t with
      | none => simpa [delivered] using delivered_append k as bs
      | some t => simp only [delivered]; split <;> simp [delivered_append k as bs]
    | _ => simpa [delivered] using delivered_append k as bs

theorem recvRun_cons (k : Kind) (l : Lock) (rs : List (Kind × Lock)) (c : Cl) (h : (recvMsg k l c).1 ≠ .crash) :
    recvRun ((k, l) :: rs) c = ((recvMsg k l c).1 :: (recvRun rs (recvMsg k l c).2).1, (recvRun rs (recvMsg k l c).2).2) := by
  simp only [recvRun]

theorem recv_run (rs : List (Kind × Lock)) : ∀ (c : Cl) (as : List Arr), Shaped as → c.wire = as.map input →
    ∃ n, n ≤ as.length ∧ (recvRun rs c).2.wire = (as.drop n).map input ∧ (recvRun rs c).1.length = rs.length ∧ Out.crash ∉ (recvRun rs c).1 ∧
      ∀ k, delivered k (recvRun rs c).1 ++ buffered k (recvRun rs c).2.msgs = buffered k c.msgs ++ texts k (as.take n) := by
  induction rs with
  | nil => intro c as _ hw; exact ⟨0, by omega, by simpa [recvRun] using hw, rfl, by simp [recvRun], by simp [recvRun, delivered, texts]⟩
  | cons r rs ih =>
    intro c as hs hw
    obtain ⟨k, l⟩ := r
    obtain ⟨n, h0, h1, h2, h3, -⟩ := recv_step k l c as hs hw
    rw [recvRun_cons k l rs c h2]
    obtain ⟨m, g0, g1, g2, g3, g4⟩ := ih (recvMsg k l c).2 (as.drop n) (shaped_drop hs n) h1
    refine ⟨n + m, by simp at g0; omega, by simpa using g1, by simp [g2], by simp [g3]; exact fun h => h2 h.symm, ?_⟩
    intro k'
    have e1 : delivered k' ((recvMsg k l c).1 :: (recvRun rs (recvMsg k l c).2).1) =
        delivered k' [(recvMsg k l c).1] ++ delivered k' (recvRun rs (recvMsg k l c).2).1 := delivered_append k' [_] _
    rw [e1, List.append_assoc, g4 k', ← List.append_assoc, h3 k', List.append_assoc, ← texts_append, ← List.take_add]

/-- C31: whatever replies and notifications arrive, with silence and failures between them, and in whatever order they are asked for: after any calls what was
handed out of one type together with what waits in the buffer is exactly what was read from the server, in this order.
Missing: messages with a namespace prefix or an unusual comment (`msg_type_false`). -/
theorem message_order_partial (rs : List (Kind × Lock)) (as : List Arr) (hs : Shaped as) :
    ∃ n, n ≤ as.length ∧ (recvRun rs ⟨[], as.map input⟩).2.wire = (as.drop n).map input ∧
      ∀ k, ∃ waiting, delivered k (recvRun rs ⟨[], as.map input⟩).1 ++ waiting = texts k (as.take n) ∧
        (recvRun rs ⟨[], as.map input⟩).2.msgs.filterMap (fun x => if x.1 = k then some x.2 else none) = waiting := by
  obtain ⟨n, h1, h2, -, -, h3⟩ := recv_run rs ⟨[], as.map input⟩ as hs rfl
  refine ⟨n, h1, h2, ?_⟩
  intro k
  refine ⟨_, ?_, rfl⟩
  have : ∀ q : List (Kind × Text), q.filterMap (fun x => if x.1 = k then some x.2 else none) = buffered k q := by
    intro q
    induction q with
    | nil => rfl
    | cons x q ih =>
      simp only [buffered, List.filter_cons, List.filterMap_cons] at ih ⊢
      by_cases hk : x.1 = k <;> simp [hk, ih]
  rw [this]
  simpa [buffered] using h3 k

theorem recv_all (k : Kind) : ∀ (m : Nat) (c : Cl) (as : List Arr), Shaped as → c.wire = as.map input → (buffered k c.msgs).length + as.length ≤ m →
    delivered k (recvRun (List.replicate m (k, .got)) c).1 = buffered k c.msgs ++ texts k as := by
  intro m
  induction m with
  | zero =>
    intro c as _ _ h
    have h1 : as = [] := List.length_eq_zero_iff.mp (by omega)
    have h2 : buffered k c.msgs = [] := List.length_eq_zero_iff.mp (by omega)
    simp [recvRun, delivered, h1, h2, texts]
  | succ m ih =>
    intro c as hs hw h
    obtain ⟨n, h0, h1, h2, h3, h4⟩ := recv_step k .got c as hs hw
    rw [List.replicate_succ, recvRun_cons k .got _ c h2]
    have e1 : delivered k ((recvMsg k .got c).1 :: (recvRun (List.replicate m (k, .got)) (recvMsg k .got c).2).1) =
        delivered k [(recvMsg k .got c).1] ++ delivered k (recvRun (List.replicate m (k, .got)) (recvMsg k .got c).2).1 := delivered_append k [_] _
    have hle : (buffered k (recvMsg k .got c).2.msgs).length + (as.drop n).length ≤ m := by
      by_cases hz : 0 < (buffered k c.msgs).length + as.length
      · have := h4 rfl hz; omega
      · have := congrArg List.length (h3 k)
        simp at this
        have h5 : as = [] := List.length_eq_zero_iff.mp (by omega)
        subst h5
        simp [texts] at this ⊢
        omega
    rw [e1, ih _ _ (shaped_drop hs n) h1 hle, ← List.append_assoc, h3 k, List.append_assoc, ← texts_append, List.take_append_drop]

theorem texts_length (k : Kind) : ∀ as : List Arr, (texts k as).length ≤ as.length
  | [] => by simp [texts]
  | a :: as => by
    have := texts_length k as
    cases a with
    | m k1 t => simp only [texts]; split <;> simp <;> omega
    | _ => simp [texts]; omega

theorem recvRun_append (rs rs' : List (Kind × Lock)) : ∀ c, Out.crash ∉ (recvRun rs c).1 →
    (recvRun (rs ++ rs') c).1 = (recvRun rs c).1 ++ (recvRun rs' (recvRun rs c).2).1 := by
  induction rs with
  | nil => intro c _; rfl
  | cons r rs ih =>
    intro c h
    obtain ⟨k, l⟩ := r
    have h1 : (recvMsg k l c).1 ≠ .crash := by
      intro he
      apply h
      simp only [recvRun]
      split
      · simp
      · rename_i o c' hne heq; rw [heq] at he; exact absurd he hne
    rw [List.cons_append, recvRun_cons k l _ c h1]
    rw [recvRun_cons k l _ c h1] at h ⊢
    simp only [List.mem_cons, not_or] at h
    rw [ih _ h.2]
    rfl

/-- C31: every message is handed out: after any calls it is enough to ask for a type as often as messages arrive to get all messages of this type, each once. -/
theorem message_delivered_partial (rs : List (Kind × Lock)) (as : List Arr) (hs : Shaped as) (k : Kind) :
    delivered k (recvRun (rs ++ List.replicate as.length (k, .got)) ⟨[], as.map input⟩).1 = texts k as := by
  obtain ⟨n, h1, h2, -, h4, h3⟩ := recv_run rs ⟨[], as.map input⟩ as hs rfl
  rw [recvRun_append _ _ _ h4, delivered_append]
  have h5 := h3 k
  simp only [buffered, List.filter_nil, List.map_nil, List.nil_append] at h5
  change _ ++ buffered k _ = _ at h5
  have hlen : (buffered k (recvRun rs ⟨[], as.map input⟩).2.msgs).length + (as.drop n).length ≤ as.length := by
    have e1 := congrArg List.length h5
    have e2 := texts_length k (as.take n)
    simp at e1 e2 ⊢
    omega
  rw [recv_all k as.length _ (as.drop n) (shaped_drop hs n) h2 hlen, ← List.append_assoc, h5, ← texts_append, List.take_append_drop]

/-- Two notifications arrive before the reply that is asked for first. -/
example : (recvRun [(.reply, .got), (.reply, .got), (.reply, .timeout), (.reply, .got), (.notif, .got), (.notif, .got), (.notif, .got)]
    ⟨[], [.msg "<notification>1".toList, .msg " <notification>2".toList, .idle, .msg "<rpc-reply>".toList]⟩).1 =
    [.got .notif none, .got .notif none, .wouldblock, .wouldblock, .got .notif (some "<notification>1".toList), .got .notif (some " <notification>2".toList), .got .reply none] := by
  decide +kernel

/-- C31: a reply with a namespace prefix is read from the server and never handed out. -/
theorem message_lost_false : ∃ t, (∀ rs, delivered .reply (recvRun ((.reply, .got) :: rs) ⟨[], [.msg t]⟩).1 = []) ∧
    (recvMsg .reply .got ⟨[], [.msg t]⟩) = (.error, ⟨[], []⟩) ∧ t = "<nc:rpc-reply xmlns:nc=\"urn:ietf:params:xml:ns:netconf:base:1.0\" message-id=\"1\"><nc:ok/></nc:rpc-reply>".toList := by
  obtain ⟨t, -, ht, h, -⟩ := msg_type_false
  have h1 : recvMsg .reply .got ⟨[], [.msg t]⟩ = (.error, ⟨[], []⟩) := by simp [recvMsg, takeBuffered, h]
  refine ⟨t, ?_, h1, ht⟩
  intro rs
  rw [recvRun_cons _ _ _ _ (by rw [h1]; simp), h1]
  simp only [delivered]
  obtain ⟨n, -, -, -, -, h3⟩ := recv_run rs ⟨[], []⟩ [] (by intro k t h; cases h) rfl
  have := h3 .reply
  simp [buffered, texts] at this
  exact this.1

/-! ## C80: invalid frames -/

/-- C80: as long as frames are valid, no call of a receiving function crashes.  Missing: invalid frames (`malformed_frame_false`). -/
theorem malformed_frame_partial (rs : List (Kind × Lock)) : ∀ c : Cl, Input.malformed ∉ c.wire → Out.crash ∉ (recvRun rs c).1 := by
  induction rs with
  | nil => intro c _; simp [recvRun]
  | cons r rs ih =>
    intro c h
    obtain ⟨k, l⟩ := r
    have key : (recvMsg k l c).1 ≠ .crash ∧ Input.malformed ∉ (recvMsg k l c).2.wire := by
      cases l with
      | timeout => exact ⟨by simp [recvMsg], h⟩
      | failed => exact ⟨by simp [recvMsg], h⟩
      | got =>
        simp only [recvMsg]
        split
        · exact ⟨by simp, h⟩
        · split
          · exact ⟨by simp, h⟩
          · rename_i w hw; rw [hw] at h; exact ⟨by simp, fun hm => h (List.mem_cons_of_mem _ hm)⟩
          · rename_i w hw; rw [hw] at h; exact ⟨by simp, fun hm => h (List.mem_cons_of_mem _ hm)⟩
          · rename_i w hw; rw [hw] at h; exact absurd List.mem_cons_self h
          · rename_i t w hw
            rw [hw] at h
            have h' : Input.malformed ∉ w := fun hm => h (List.mem_cons_of_mem _ hm)
            split
            · exact ⟨by simp, h'⟩
            · split <;> exact ⟨by simp, h'⟩
    rw [recvRun_cons k l rs c key.1]
    simp only [List.mem_cons, not_or]
    exact ⟨fun h => key.1 h.symm, ih _ key.2⟩

/-- C80: a server of NETCONF 1.1 that sends an end of chunks without a chunk makes the client read through a null pointer. -/
theorem malformed_frame_false : ∃ c, recvRun [(.reply, .got)] c = ([.crash], ⟨[], []⟩) ∧ c.wire = [.malformed] := ⟨⟨[], [.malformed]⟩, by decide +kernel, rfl⟩

/-! ## C32, C81: replies -/

theorem strtoul_dec_end (n : Nat) (hn : n < 2 ^ 64) : strtoul (dec n) = n := by
  have h := strtoul_dec n hn 0 (by decide) []
  have e : cstr (dec n ++ [0]) = cstr (dec n) := by
    unfold cstr
    rw [List.takeWhile_append_of_pos, List.takeWhile_cons]
    · have : (dec n).takeWhile (· != 0) = dec n := by
        have := List.takeWhile_append_of_pos (p := (· != 0)) (l₁ := dec n) (l₂ := []) (by
          intro b hb
          have := dec_isDigit n b hb
          simp [isDigit] at this
          simp; omega)
        simpa using this
      rw [this]; simp
    · intro b hb
      have := dec_isDigit n b hb
      simp [isDigit] at this
      simp; omega
  unfold strtoul at h ⊢
  rw [e] at h
  exact h

/-- C32: if the server returns some message-id as the client writes them, the reply is accepted exactly if this is the id of the request, whatever the other attributes are;
without the attribute it is a mismatch.  Missing: other texts in the attribute (`reply_match_false`). -/
theorem reply_match_partial (pre post : List (Text × Text)) (v : Text) (n msgid : Nat) (hn : n < 2 ^ 64) (hpre : ∀ a ∈ pre, a.1 ≠ "message-id".toList) (hv : v.map Char.toNat = dec n) :
    (checkMsgid (pre ++ ("message-id".toList, v) :: post) msgid = .reply ↔ n = msgid) ∧ checkMsgid (pre ++ ("message-id".toList, v) :: post) msgid ≠ .error ∧
    checkMsgid pre msgid = .badMsgid := by
  have h0 : pre.find? (fun a => a.1 == "message-id".toList) = none := by
    rw [List.find?_eq_none]
    intro a ha
    simpa using hpre a ha
  have h1 : (pre ++ ("message-id".toList, v) :: post).find? (fun a => a.1 == "message-id".toList) = some ("message-id".toList, v) := by
    rw [List.find?_append, h0]
    simp
  simp only [checkMsgid, h0, h1, hv, strtoul_dec_end n hn]
  by_cases h : n = msgid <;> simp [h]

example : checkMsgid [("a".toList, "7".toList), ("message-id".toList, "42".toList)] 42 = .reply ∧ checkMsgid [("message-id".toList, "420".toList)] 42 = .badMsgid ∧
    ("42".toList).map Char.toNat = dec 42 := by decide +kernel

/-- C32: replies with other message ids are accepted as matching. -/
theorem reply_match_false : ∀ v ∈ ["5abc", " 5", "+5", "-18446744073709551611"].map String.toList, checkMsgid [("message-id".toList, v)] 5 = .reply := by
  decide +kernel

/-- C81: if the parser gives an envelope only for valid replies, whatever is reported as a reply was parsed; with any message-id written as the client does, it is reported
exactly if the id matches.  Missing: replies that are not valid inside their envelope (`reply_parsed_false`). -/
theorem reply_parsed_partial (p : Parsed) (msgid : Nat) (h : p.ok = false → p.envp = none) :
    (recvReply p msgid = .reply → p.ok = true) ∧ (p.ok = false → recvReply p msgid = .error) ∧
    ∀ v n, p.envp = some [("message-id".toList, v)] → n < 2 ^ 64 → v.map Char.toNat = dec n → (recvReply p msgid = .reply ↔ n = msgid) := by
  refine ⟨?_, ?_, ?_⟩
  · intro hr
    cases hp : p.ok with
    | true => rfl
    | false => simp [recvReply, h hp, hp] at hr
  · intro hp
    simp [recvReply, h hp, hp]
  · intro v n he hn hv
    simpa [recvReply, he] using (reply_match_partial [] [] v n msgid hn (by simp) hv).1

example : recvReply ⟨true, some [("message-id".toList, "3".toList)]⟩ 3 = .reply ∧ recvReply ⟨false, none⟩ 3 = .error := by decide +kernel

/-- C81: a reply whose content could not be parsed is reported as a reply if its envelope was. -/
theorem reply_parsed_false : ∃ p, p.ok = false ∧ recvReply p 1 = .reply := ⟨⟨false, some [("message-id".toList, "1".toList)]⟩, rfl, by decide +kernel⟩

/-! ## C09: message ids -/

theorem send_run (as : List SendAct) : ∀ s s', sendRun as s = some s' → s.msgid = s.wire.length → (s.wire.map (·.2) = (List.range s.wire.length).map (· + 1)) →
    s'.wire.length < 2 ^ 64 → s'.msgid = s'.wire.length ∧ s'.wire.map (·.2) = (List.range s'.wire.length).map (· + 1) := by
  have mono : ∀ (as : List SendAct) s s', sendRun as s = some s' → s.wire.length ≤ s'.wire.length := by
    intro as
    induction as with
    | nil => intro s s' h; cases h; omega
    | cons a as ih =>
      intro s s' h
      simp only [sendRun] at h
      split at h
      · cases h
      · rename_i s1 h1
        have := ih s1 s' h
        cases a with
        | write t =>
          simp only [sendStep] at h1
          split at h1
          · cases h1
          · cases h1; simp at this; omega
        | fetch t =>
          simp only [sendStep] at h1
          split at h1
          · cases h1; exact this
          · cases h1
  induction as with
  | nil => intro s s' h h1 h2 _; cases h; exact ⟨h1, h2⟩
  | cons a as ih =>
    intro s s' h h1 h2 h3
    simp only [sendRun] at h
    split at h
    · cases h
    · rename_i s1 hs1
      refine ih s1 s' h ?_ ?_ h3
      all_goals
        have hm := mono as s1 s' h
        cases a with
        | write t =>
          simp only [sendStep] at hs1
          split at hs1
          · cases hs1
          · cases hs1
            simp only [List.length_append, List.length_cons, List.length_nil, Nat.zero_add] at hm
            have hmod : (s.msgid + 1) % 2 ^ 64 = s.wire.length + 1 := by rw [h1]; exact Nat.mod_eq_of_lt (by omega)
            simp [hmod, h2, List.range_succ]
        | fetch t =>
          simp only [sendStep] at hs1
          split at hs1
          · cases hs1; first | exact h1 | exact h2
          · cases hs1

/-- C09: however the sending threads interleave, the ids on the wire are 1, 2, 3, …, in particular all different (fewer than 2^64 RPCs). -/
theorem msgid_fresh (as : List SendAct) (s : Send) (h : sendRun as sendInit = some s) (hl : s.wire.length < 2 ^ 64) :
    s.wire.map (·.2) = (List.range s.wire.length).map (· + 1) ∧ (s.wire.map (·.2)).Nodup := by
  have := (send_run as sendInit s h rfl rfl hl).2
  refine ⟨this, ?_⟩
  rw [this]
  exact List.nodup_range.map _ (fun a b h h' => h (by omega))

/-- One RPC after the other. -/
def sequential (ts : List Nat) : List SendAct := ts.flatMap fun t => [.write t, .fetch t]

/-- C09: if every thread learns its id before the next RPC is sent, each is told the id on the wire.  Missing: concurrent senders (`msgid_told_false`). -/
theorem msgid_told_partial (ts : List Nat) : ∃ s, sendRun (sequential ts) sendInit = some s ∧ s.told = s.wire ∧ s.wire.map (·.1) = ts := by
  have key : ∀ (ts : List Nat) (s : Send), s.waiting = [] → s.told = s.wire → ∃ s', sendRun (sequential ts) s = some s' ∧ s'.told = s'.wire ∧ s'.wire.map (·.1) = s.wire.map (·.1) ++ ts := by
    intro ts
    induction ts with
    | nil => intro s _ h; exact ⟨s, rfl, h, by simp⟩
    | cons t ts ih =>
      intro s hw ht
      obtain ⟨s', h1, h2, h3⟩ := ih ⟨(s.msgid + 1) % 2 ^ 64, s.wire ++ [(t, (s.msgid + 1) % 2 ^ 64)], [], s.wire ++ [(t, (s.msgid + 1) % 2 ^ 64)]⟩ rfl rfl
      refine ⟨s', ?_, h2, by simpa using h3⟩
      rw [← h1]
      simp [sequential, sendRun, sendStep, hw, ht]
  simpa [sendInit] using key ts sendInit rfl rfl

example : sendRun (sequential [4, 4, 9]) sendInit = some ⟨3, [(4, 1), (4, 2), (9, 3)], [], [(4, 1), (4, 2), (9, 3)]⟩ := by decide +kernel

/-- C09: two threads send; the first one is told the id of the other one's RPC. -/
theorem msgid_told_false : ∃ as s, sendRun as sendInit = some s ∧ (1, 1) ∈ s.wire ∧ (1, 2) ∈ s.told :=
  ⟨[.write 1, .write 2, .fetch 1, .fetch 2], ⟨2, [(1, 1), (2, 2)], [], [(1, 2), (2, 2)]⟩, by decide +kernel, by decide, by decide⟩

/-! ## C82: closing a session -/

theorem leftover_quiet (wire : Nat → Input) : ∀ (d fuel i : Nat), (∀ t, wire (i + d) ≠ .msg t) → d < fuel → ∃ j, leftoverLoop wire fuel i = some j ∧ j ≤ i + d
  | d, 0, i, _, h => by omega
  | d, fuel + 1, i, hq, h => by
    simp only [leftoverLoop]
    split
    · rename_i t ht
      match d with
      | 0 => exact absurd ht (hq t)
      | d + 1 =>
        obtain ⟨j, h1, h2⟩ := leftover_quiet wire d fuel (i + 1) (by rw [show i + 1 + d = i + (d + 1) by omega]; exact hq) (by omega)
        exact ⟨j, h1, by omega⟩
    · exact ⟨i, rfl, by omega⟩

theorem close_quiet (wire : Nat → Input) : ∀ (d fuel i : Nat), (∀ t, wire (i + d) ≠ .msg t) → d < fuel → ∃ j, closeLoop wire fuel i = some j ∧ j ≤ i + d + 1
  | d, 0, i, _, h => by omega
  | d, fuel + 1, i, hq, h => by
    simp only [closeLoop]
    split
    · rename_i t ht
      match d with
      | 0 => exact absurd ht (hq t)
      | d + 1 =>
        split
        · obtain ⟨j, h1, h2⟩ := close_quiet wire d fuel (i + 1) (by rw [show i + 1 + d = i + (d + 1) by omega]; exact hq) (by omega)
          exact ⟨j, h1, by omega⟩
        · exact ⟨i + 1, rfl, by omega⟩
    · exact ⟨i, rfl, by omega⟩

/-- C82: if the server is silent again and again (at intervals of at most `d` messages), closing a session reads at most `2 * d + 2` times.
Missing: servers that send without a pause (`close_ends_false`). -/
theorem close_ends_partial (wire : Nat → Input) (d : Nat) (h : ∀ i, ∃ j, i ≤ j ∧ j ≤ i + d ∧ ∀ t, wire j ≠ .msg t) :
    ∃ j, freeReads wire (d + 1) = some j ∧ j ≤ 2 * d + 2 := by
  obtain ⟨a, -, ha, hq⟩ := h 0
  obtain ⟨i, h1, h2⟩ := leftover_quiet wire a (d + 1) 0 (by simpa using hq) (by omega)
  obtain ⟨b, hb0, hb, hq2⟩ := h (i + 1)
  obtain ⟨j, h3, h4⟩ := close_quiet wire (b - (i + 1)) (d + 1) (i + 1) (by rw [show i + 1 + (b - (i + 1)) = b by omega]; exact hq2) (by omega)
  exact ⟨j, by simp only [freeReads, h1, h3], by omega⟩

example : freeReads (fun i => if i = 2 then .idle else if i = 4 then .msg "<rpc-reply>".toList else .msg "<notification>".toList) 9 = some 5 := by decide +kernel

/-- C82: a server that keeps sending notifications keeps the client in the function freeing its session for ever. -/
theorem close_ends_false : ∃ wire, ∀ fuel, freeReads wire fuel = none := by
  refine ⟨fun _ => .msg "<notification>".toList, ?_⟩
  intro fuel
  have : ∀ fuel i, leftoverLoop (fun _ => .msg "<notification>".toList) fuel i = none := by
    intro fuel
    induction fuel with
    | zero => intro i; rfl
    | succ f ih => intro i; simp only [leftoverLoop]; exact ih (i + 1)
  simp only [freeReads, this]

/-! ## C83: notification threads -/

/-- The notification threads alive after a history: those started that did not end. -/
def alive (acts : List NtfAct) : Int := (acts.count .start : Int) - acts.count .ends

/-- C83: if no notification thread is reported, none is running. Missing: after all have ended one is still reported (`ntf_running_false`). -/
theorem ntf_running_partial (acts : List NtfAct) (hv : ∀ pre suf, acts = pre ++ suf → 0 ≤ alive pre) (h : ntfReported (acts.foldl ntfStep ⟨0, false⟩) = false) : alive acts = 0 := by
  have key : ∀ acts : List NtfAct, (∀ pre suf, acts = pre ++ suf → 0 ≤ alive pre) → ((acts.foldl ntfStep ⟨0, false⟩).count : Int) = alive acts ∧
      ((acts.foldl ntfStep ⟨0, false⟩).running = false → alive acts = 0) := by
    intro acts
    induction h : acts.reverse generalizing acts with
    | nil => have : acts = [] := by simpa using h
             subst this; intro _; simp [alive]
    | cons a l ih =>
      have he : acts = l.reverse ++ [a] := by simpa using congrArg List.reverse h
      subst he
      intro hv
      obtain ⟨h1, h2⟩ := ih l.reverse (by simp) (fun pre suf hp => hv pre (suf ++ [a]) (by rw [hp, List.append_assoc]))
      have hv1 := hv (l.reverse ++ [a]) [] (by simp)
      have hv2 := hv l.reverse [a] rfl
      rw [List.foldl_append]
      generalize l.reverse.foldl ntfStep ⟨0, false⟩ = n at *
      cases a with
      | start => simp [ntfStep, alive] at *; omega
      | startFailed =>
        simp only [List.foldl_cons, List.foldl_nil, ntfStep]
        simp [alive] at *
        split <;> simp <;> omega
      | ends =>
        simp only [List.foldl_cons, List.foldl_nil, ntfStep]
        simp [alive] at *
        constructor
        · omega
        · intro hr
          have := h2 hr
          omega
  exact (key acts hv).2 h

example : ntfReported ([.start, .startFailed, .start, .ends].foldl ntfStep ⟨0, false⟩) = true ∧ ntfReported ([.startFailed].foldl ntfStep ⟨0, false⟩) = false := by decide

/-- C83: the only notification thread has ended after the last notification of its subscription, and one is still reported. -/
theorem ntf_running_false : ∃ acts, alive acts = 0 ∧ ntfReported (acts.foldl ntfStep ⟨0, false⟩) = true := ⟨[.start, .ends], by decide, by decide⟩

end Verif.Props
