import Verif.Spec.Dialog
import Verif.Props.Framing
import Verif.Props.ClientMsg
import Verif.Props.ServerRpc

/-! # Lemmas about a client and a server talking to each other -/

namespace Verif.Dialog
open Verif.Reader Verif.Writer
open Verif.ServerRpc (Srv Sent Body Text Serves Shows Says IsOp)
open Verif.ClientMsg (Kind Out ReplyRes Parsed buffered takeBuffered takeBuffered_none takeBuffered_some getMsgType getMsgType_root)

/-! ## Bytes and characters -/

theorem toNat_ofNat {b : Nat} (h : b < 256) : (Char.ofNat b).toNat = b := by
  have : b.isValidChar := Or.inl (by omega)
  simp [Char.ofNat, this, Char.ofNatAux, Char.toNat]

theorem bytes_chars : ∀ {t : List Byte}, (∀ b ∈ t, b < 256) → bytes (chars t) = t
  | [], _ => rfl
  | b :: t, h => by
    have := bytes_chars (t := t) (fun c hc => h c (List.mem_cons_of_mem _ hc))
    simp only [bytes, chars, List.map_cons] at this ⊢
    rw [toNat_ofNat (h b List.mem_cons_self), this]

theorem chars_bytes (t : Text) : chars (bytes t) = t := by
  induction t with
  | nil => rfl
  | cons c t ih =>
    simp only [bytes, chars, List.map_cons] at ih ⊢
    rw [ih, Char.ofNat_toNat]

theorem bytes_append (a b : Text) : bytes (a ++ b) = bytes a ++ bytes b := by simp [bytes]

theorem chars_append (a b : List Byte) : chars (a ++ b) = chars a ++ chars b := by simp [chars]

theorem dec_small (n : Nat) : ∀ b ∈ dec n, b < 256 := by
  intro b hb
  have := dec_isDigit n b hb
  simp [isDigit] at this
  omega

theorem bytes_digits (id : Nat) : bytes (digits id) = dec id := bytes_chars (dec_small id)

theorem text_append (a b : List Op) : text (a ++ b) = text a ++ text b := by
  induction a with
  | nil => rfl
  | cons o a ih => simp only [List.cons_append, text, ih, List.append_assoc]

theorem text_plain (t : Text) (l : List Op) : text (plain t :: l) = bytes t ++ text l := rfl

theorem text_rpcWrites (x : Xml) (id : Nat) (op : ServerRpc.Op) : text (rpcWrites x id op) = rpcText x id op := by
  unfold rpcWrites rpcText
  rw [List.cons_append, text, text_append, text_plain, bytes_append, bytes_append, bytes_digits]
  simp [text]

theorem text_notifWrites (x : Xml) (n : Notif) : text (notifWrites x n) = ntfText x n := by
  unfold notifWrites ntfText
  rw [List.cons_append, List.cons_append, List.cons_append, List.cons_append, text_plain, text_plain, text_plain, text_plain, text_append, text_plain]
  have e : c!"<notification xmlns=\"urn:ietf:params:xml:ns:netconf:notification:1.0\"><eventTime>" =
      c!"<notification xmlns=\"urn:ietf:params:xml:ns:netconf:notification:1.0\">" ++ c!"<eventTime>" := by decide +kernel
  rw [e]
  simp only [bytes_append, List.append_assoc, text, List.append_nil]

/-! ## Frames -/

/-- Bytes from which a message is read, if reading does not fail, whatever follows; reading byte by byte does not fail. -/
def Carries (v : Version) (f t : List Byte) : Prop :=
  f ≠ [] ∧ (∀ rest r, receive v r (f ++ rest) = .fail ∨ ∃ sc, receive v r (f ++ rest) = .msg t ⟨rest, sc⟩) ∧
    ∀ rest, receive v (byteWise (f ++ rest)) (f ++ rest) ≠ .fail

/-- The stream read byte by byte. -/
def slowly (s : List Byte) : Chan := ⟨s, List.replicate s.length (.data 0)⟩

theorem slow_loop (count : Nat) : ∀ (s buf : List Byte), buf.length < count → count - buf.length ≤ s.length →
    ncReadLoop count (List.replicate s.length (.data 0)) s buf = some (buf ++ s.take (count - buf.length), slowly (s.drop (count - buf.length))) := by
  intro s
  induction s with
  | nil => intro buf h1 h2; simp at h2; omega
  | cons c s ih =>
    intro buf h1 h2
    rw [List.length_cons, List.replicate_succ, ncReadLoop]
    have hm : min (0 + 1) (count - buf.length) = 1 := by omega
    simp only [hm, List.length_cons]
    rw [if_neg (by omega)]
    simp only [List.take_succ_cons, List.take_zero, List.drop_succ_cons, List.drop_zero]
    obtain ⟨d, hd⟩ : ∃ d, count - buf.length = d + 1 := ⟨count - buf.length - 1, by omega⟩
    by_cases h : (buf ++ [c]).length < count
    · rw [if_pos h, ih (buf ++ [c]) h (by simp at h2 ⊢; omega)]
      have hd' : count - (buf ++ [c]).length = d := by simp; omega
      rw [hd', hd]
      simp
    · rw [if_neg h]
      have : d = 0 := by simp at h; omega
      subst this
      rw [hd]
      simp [slowly]

theorem slow_sim (n : Nat) (s b s' : List Byte) (h : readN n s = some (b, s')) : ncRead n (slowly s) = some (b, slowly s') := by
  unfold readN at h
  split at h
  · rename_i hn
    cases h
    unfold ncRead
    split
    · rename_i h0; subst h0; simp
    · have := slow_loop n s [] (by simp; omega) (by simpa using hn)
      simp only [List.length_nil, Nat.sub_zero, List.nil_append] at this
      exact this
  · cases h

theorem slow11 {f t rest : List Byte} (h : recv11 (f ++ rest) = .msg t rest) : receive .v11 (byteWise (f ++ rest)) (f ++ rest) ≠ .fail := by
  have := readMsg11_sim readN ncRead slowly slow_sim (fun _ => true) (fun _ => true) (fun _ h => h) ((f ++ rest).length + 1) ((f ++ rest).length + 1) (Nat.le_refl _)
    ((f ++ rest).length + 1) ((f ++ rest).length + 1) none (f ++ rest) (Nat.le_refl _) (by
      unfold recv11 at h; rw [h]; simp)
  unfold recv11 at h
  rw [h] at this
  show readMsg11 ncRead _ _ _ none (slowly (f ++ rest)) ≠ .fail
  rw [show (byteWise (f ++ rest)).mem = fun _ => true from rfl, show (byteWise (f ++ rest)).fuel = (f ++ rest).length + 1 from rfl, this]
  simp [Res.map]

theorem slow10 {f t rest : List Byte} (h : recv10 (f ++ rest) = .msg t rest) : receive .v10 (byteWise (f ++ rest)) (f ++ rest) ≠ .fail := by
  unfold recv10 at h
  have := readMsg10_sim readN ncRead slowly slow_sim ((f ++ rest).length + 1) ((f ++ rest).length + 1) (Nat.le_refl _) (f ++ rest) (by rw [h]; simp)
  rw [h] at this
  show readMsg10 ncRead _ (slowly (f ++ rest)) ≠ .fail
  rw [show (byteWise (f ++ rest)).fuel = (f ++ rest).length + 1 from rfl, this]
  simp [Res.map]

theorem firstEom_text {t : List Byte} (hin : ¬ Spec.eom <:+: t) (he1 : ¬ [93] <:+ t) (he2 : ¬ [93, 93, 62] <:+ t) (rest : List Byte) :
    Spec.FirstEom (t ++ Spec.eom ++ rest) t rest := by
  refine ⟨rfl, ?_⟩
  intro m' rest' h
  rcases Nat.lt_or_ge m'.length t.length with hlt | hge
  · exfalso
    rw [List.append_assoc, List.append_assoc] at h
    obtain ⟨u, hu⟩ : ∃ u, t = m' ++ u := by
      have h' := congrArg (List.take m'.length) h
      rw [List.take_left, List.take_append_of_le_length (by omega)] at h'
      exact ⟨t.drop m'.length, by have := List.take_append_drop m'.length t; rw [h'] at this; exact this.symm⟩
    rw [hu, List.append_assoc, List.append_cancel_left_eq] at h
    have hune : u ≠ [] := by rintro rfl; simp at hu; rw [hu] at hlt; simp at hlt
    rw [hu] at hin he1 he2
    rcases Nat.lt_or_ge u.length 6 with hul | hul
    · have hup : u = Spec.eom.take u.length := by
        have h' := congrArg (List.take u.length) h
        rw [List.take_left, List.take_append_of_le_length (by simp [Spec.eom]; omega)] at h'
        exact h'
      generalize hn : u.length = n at *
      have : n = 0 ∨ n = 1 ∨ n = 2 ∨ n = 3 ∨ n = 4 ∨ n = 5 := by omega
      have hs1 : ∀ q, u = q ++ [93] → False := fun q hq => he1 ⟨m' ++ q, by rw [hq]; simp⟩
      have hs2 : ∀ q, u = q ++ [93, 93, 62] → False := fun q hq => he2 ⟨m' ++ q, by rw [hq]; simp⟩
      rcases this with rfl | rfl | rfl | rfl | rfl | rfl <;> simp [Spec.eom] at hup
      · exact hune hup
      · exact hs1 [] hup
      · exact hs1 [93] hup
      · exact hs2 [] hup
      · exact hs1 [93, 93, 62] hup
      · exact hs1 [93, 93, 62, 93] hup
    · have h' := congrArg (List.take 6) h
      rw [List.take_append_of_le_length hul] at h'
      have h6 : (Spec.eom ++ rest').take 6 = Spec.eom := rfl
      rw [h6] at h'
      exact hin ⟨m', u.drop 6, by rw [← h']; simp [List.take_append_drop]⟩
  · exact hge

theorem put_spec (v : Version) (wire : List Byte) (w : List WriteEv) (ops : List Op) (hw : NoFail w) (hf : Fits v ops) :
    ∃ f, put v wire w ops = some (wire ++ f) ∧ Carries v f (text ops) := by
  obtain ⟨hl, hs, -⟩ := hf
  cases v with
  | v11 =>
    obtain ⟨k', sent, h1, h2, h3, h4⟩ := Props.framing11_roundtrip ⟨wire, w, true⟩ ops rfl hw hl hs.1 hs.2
    refine ⟨sent, ?_, ?_, ?_, fun rest => slow11 (h3 rest)⟩
    · unfold put; rw [h1]; exact congrArg some h2
    · rintro rfl
      have := h3 []
      rw [List.nil_append, show recv11 [] = .fail by decide] at this
      cases this
    · intro rest r
      exact h4 rest r.script r.mem r.fuel _ rfl
  | v10 =>
    obtain ⟨k', cs, h1, h2, h3, h4, -, -⟩ := sendMsg_good .v10 ⟨wire, w, true⟩ wire ops ⟨rfl, rfl, hw⟩ hl
    rw [Props.flatMap_encV_v10, h3] at h4
    obtain ⟨hn, hsz, hin, he1, he2⟩ := hs
    refine ⟨text ops ++ Spec.eom, ?_, by simp [Spec.eom], ?_,
      fun rest => slow10 (Props.framing10_first_eom_partial _ _ rest (firstEom_text hin he1 he2 rest) hn hsz he1 he2).1⟩
    · unfold put; rw [h1]
      simp only [h4, endTag, Spec.eom, List.append_assoc]
    · intro rest r
      exact (Props.framing10_first_eom_partial _ _ rest (firstEom_text hin he1 he2 rest) hn hsz he1 he2).2 r.script r.fuel _ rfl

/-- Bytes holding messages one after the other. -/
inductive Frames (v : Version) : List Byte → List (List Byte) → Prop
  | nil : Frames v [] []
  | cons (f w t : List Byte) (l : List (List Byte)) (hf : Carries v f t) (h : Frames v w l) : Frames v (f ++ w) (t :: l)

theorem Frames.snoc {v : Version} {w f t : List Byte} {l : List (List Byte)} (h : Frames v w l) (hf : Carries v f t) : Frames v (w ++ f) (l ++ [t]) := by
  induction h with
  | nil => simpa using Frames.cons f [] t [] hf .nil
  | cons g w u l hg _ ih => rw [List.append_assoc]; exact .cons g _ u _ hg ih

theorem Frames.eq_nil {v : Version} {w : List Byte} (h : Frames v w []) : w = [] := by
  cases h; rfl

theorem Frames.head {v : Version} {w t : List Byte} {l : List (List Byte)} (h : Frames v w (t :: l)) :
    w ≠ [] ∧ (∀ r, receive v r w = .fail ∨ ∃ rest sc, receive v r w = .msg t ⟨rest, sc⟩ ∧ Frames v rest l ∧ rest.length < w.length) ∧ receive v (byteWise w) w ≠ .fail := by
  cases h with
  | cons f w t l hf h =>
    refine ⟨by simp [hf.1], fun r => ?_, hf.2.2 w⟩
    rcases hf.2.1 w r with h1 | ⟨sc, h1⟩
    · exact Or.inl h1
    · refine Or.inr ⟨w, sc, h1, h, ?_⟩
      have := List.length_pos_iff.2 hf.1
      simp; omega

/-! ## Types of messages -/

theorem type_reply {t : List Byte} (h : bytes c!"<rpc-reply" <+: t) : getMsgType (chars t) = some .reply := by
  obtain ⟨r, rfl⟩ := h
  rw [chars_append, chars_bytes]
  show getMsgType ('<' :: (c!"rpc-reply" ++ chars r)) = _
  have e : c!"rpc-reply" = ['r','p','c','-','r','e','p','l','y'] := by decide +kernel
  rw [getMsgType_root]
  · rw [if_pos]; rw [List.isPrefixOf_iff_prefix]; exact ⟨chars r, rfl⟩
  · rw [e]; rfl
  · rw [e]; rfl

theorem type_notif (x : Xml) (n : Notif) : getMsgType (chars (ntfText x n)) = some .notif := by
  obtain ⟨z, hz⟩ : ∃ z, chars (ntfText x n) = '<' :: (c!"notification" ++ z) := by
    unfold ntfText
    rw [chars_append, chars_append, chars_bytes]
    have e : c!"<notification xmlns=\"urn:ietf:params:xml:ns:netconf:notification:1.0\"><eventTime>" =
        '<' :: (c!"notification" ++ c!" xmlns=\"urn:ietf:params:xml:ns:netconf:notification:1.0\"><eventTime>") := by decide +kernel
    rw [e, List.cons_append, List.cons_append, List.cons_append, List.cons_append, List.append_assoc, List.append_assoc, List.append_assoc, List.append_assoc]
    exact ⟨_, rfl⟩
  rw [hz, getMsgType_root]
  · rw [if_neg, if_pos]
    · rw [List.isPrefixOf_iff_prefix]; exact ⟨z, by rw [show "notification".toList = c!"notification" by decide +kernel]⟩
    · intro h; cases h
  · rfl
  · rfl

/-! ## Receiving -/

/-- Texts of one kind that wait in the buffer and on the way. -/
def pend (k : Kind) (kept : List (Kind × Text)) (l : List (Kind × List Byte)) : List Text :=
  buffered k kept ++ buffered k (l.map fun m => (m.1, chars m.2))

/-- The bytes hold these messages, each of its type. -/
def Pend (v : Version) (down : List Byte) (l : List (Kind × List Byte)) : Prop :=
  Frames v down (l.map (·.2)) ∧ ∀ m ∈ l, getMsgType (chars m.2) = some m.1

theorem buffered_append (k : Kind) (a b : List (Kind × Text)) : buffered k (a ++ b) = buffered k a ++ buffered k b := by
  simp [buffered]

theorem pend_keep (k k' : Kind) (kept : List (Kind × Text)) (t : List Byte) (l : List (Kind × List Byte)) :
    pend k (kept ++ [(k', chars t)]) l = pend k kept ((k', t) :: l) := by
  simp only [pend, buffered_append, List.map_cons, List.append_assoc]
  congr 1
  rw [← buffered_append]; rfl

theorem next_slow {v : Version} {down : List Byte} {l : List (Kind × List Byte)} (h : Pend v down l) : (next v (byteWise down) down).1 ≠ .failure := by
  unfold next
  cases l with
  | nil => rw [if_pos h.1.eq_nil]; simp
  | cons m l =>
    obtain ⟨hne, hr, hs⟩ := Frames.head h.1
    rw [if_neg hne]
    rcases hr (byteWise down) with hr | ⟨rest, sc, hr, -⟩
    · exact absurd hr hs
    · rw [hr]; simp

theorem recv_spec (v : Version) (s : St) (k : Kind) (lock : ClientMsg.Lock) (r : Reading) (l : List (Kind × List Byte)) (h : Pend v s.down l) :
    ∃ o kept' down' l', recv v s k lock r = (o, { s with kept := kept', down := down' }) ∧ Pend v down' l' ∧
      ((∃ t, o = .got k (some t) ∧ pend k s.kept l = t :: pend k kept' l' ∧ ∀ k', k' ≠ k → pend k' s.kept l = pend k' kept' l') ∨
       (((∃ k', o = .got k' none) ∨ o = .wouldblock) ∧ (∀ k', pend k' s.kept l = pend k' kept' l') ∧
         (lock = .got → down'.length < s.down.length ∨ (s.down = [] ∧ buffered k s.kept = []))) ∨
       (o = .error ∧ down' = s.down ∧ ((next v r down').1 = .failure ∨ lock = .failed))) := by
  cases lock with
  | timeout => exact ⟨.wouldblock, s.kept, s.down, l, by simp [recv, ClientMsg.recvMsg], h, Or.inr (Or.inl ⟨Or.inr rfl, fun _ => rfl, by simp⟩)⟩
  | failed => exact ⟨.error, s.kept, s.down, l, by simp [recv, ClientMsg.recvMsg], h, Or.inr (Or.inr ⟨rfl, rfl, Or.inr rfl⟩)⟩
  | got =>
    unfold recv ClientMsg.recvMsg
    dsimp only
    cases hb : takeBuffered k s.kept with
    | some z =>
      obtain ⟨t, q⟩ := z
      obtain ⟨h1, h2⟩ := takeBuffered_some hb
      refine ⟨.got k (some t), q, s.down, l, by simp, h, Or.inl ⟨t, rfl, ?_, ?_⟩⟩
      · simp [pend, h1]
      · intro k' hk; simp [pend, h2 k' hk]
    | none =>
      have hn := takeBuffered_none hb
      dsimp only
      cases l with
      | nil =>
        have hd : s.down = [] := h.1.eq_nil
        have hnx : next v r s.down = (.idle, s.down) := by unfold next; rw [if_pos hd]
        rw [hnx]
        exact ⟨.wouldblock, s.kept, s.down, [], by simp, h, Or.inr (Or.inl ⟨Or.inr rfl, fun _ => rfl, fun _ => Or.inr ⟨hd, hn⟩⟩)⟩
      | cons m l =>
        obtain ⟨k1, t⟩ := m
        obtain ⟨hne, hr, -⟩ := Frames.head h.1
        rcases hr r with hr | ⟨rest, sc, hr, hfr, hlt⟩
        · have hnx : next v r s.down = (.failure, s.down) := by unfold next; rw [if_neg hne, hr]
          rw [hnx]
          exact ⟨.error, s.kept, s.down, _, by simp, h, Or.inr (Or.inr ⟨rfl, rfl, Or.inl (by rw [hnx])⟩)⟩
        · have hnx : next v r s.down = (.msg (chars t), rest) := by unfold next; rw [if_neg hne, hr]
          have ht : getMsgType (chars t) = some k1 := h.2 (k1, t) (by simp)
          have hp : Pend v rest l := ⟨hfr, fun m hm => h.2 m (by simp [hm])⟩
          rw [hnx]
          simp only [ht]
          by_cases hk : k1 = k
          · subst hk
            refine ⟨.got k1 (some (chars t)), s.kept, rest, l, by simp, hp, Or.inl ⟨_, rfl, ?_, ?_⟩⟩
            · simp [pend, hn]; simp [buffered]
            · intro k' hk
              have : ¬ k1 = k' := fun h => hk h.symm
              simp [pend, buffered, this]
          · refine ⟨.got k1 none, s.kept ++ [(k1, chars t)], rest, l, by simp [hk], hp, Or.inr (Or.inl ⟨Or.inl ⟨k1, rfl⟩, ?_, fun _ => Or.inl hlt⟩)⟩
            intro k'
            rw [pend_keep]

/-! ## Serving -/

theorem serve_spec (srv : Srv) (s : ServerRpc.Sess) (id : Nat) (op : ServerRpc.Op) (hs : s.status = .running) (hr : s.reason = Poll.tNone) (hop : IsOp op)
    (hcb : ∀ c op, (srv.run c op .running Poll.tNone).status = .running) :
    ∃ b ret s', ServerRpc.serve srv s ⟨.parsed ⟨none, nsBase, [⟨c!"message-id", digits id⟩]⟩ op, .got, .takes⟩ = some (ret, s') ∧
      s'.sent = s.sent ++ [replyTo id b] ∧ Answers srv op b ∧ (s'.status = .running → s'.reason = Poll.tNone) ∧
      ((∃ c, Serves srv op c ∧ s'.calls = s.calls ++ [(c, op)] ∧ (s'.status = .running ∨ (srv.run c op .running Poll.tNone).reason ≠ Poll.tNone)) ∨
       ((∀ c, ¬ Serves srv op c) ∧ s'.calls = s.calls ∧ s'.status = .running)) := by
  have hid : ServerRpc.HasId ⟨none, nsBase, [⟨c!"message-id", digits id⟩]⟩ := ⟨_, List.mem_singleton.2 rfl, rfl⟩
  obtain ⟨h1, h2⟩ := Props.callback_reply srv s _ op hs hid hop
  simp only [Poll.whyNone_eq] at h1 h2
  rw [hr] at h1
  by_cases hc : ∃ c, Serves srv op c
  · obtain ⟨c, hc⟩ := hc
    obtain ⟨x, ret, s', e1, e2, e3, e4, e5, e6, e7, e8, e9, e10⟩ := h1 c hc (hcb c op)
    obtain ⟨pf, ns, at', b⟩ := x
    dsimp only at e4 e5 e6 e9 e10
    subst e4 e5 e6
    refine ⟨b, ret, s', e1, e2, Or.inl ⟨c, hc, ?_⟩, e8.1, Or.inl ⟨c, hc, e3, ?_⟩⟩
    · rw [Poll.whyNone_eq]
      cases hrep : (srv.run c op .running Poll.tNone).reply with
      | some r => exact Or.inl ⟨r, rfl, e9 r hrep⟩
      | none => exact Or.inr ⟨rfl, e10 hrep⟩
    · by_cases hq : (srv.run c op .running Poll.tNone).reason = Poll.tNone
      · exact Or.inl (e8.2 (by rw [e7, hq]))
      · exact Or.inr hq
  · have hc : ∀ c, ¬ Serves srv op c := fun c h => hc ⟨c, h⟩
    obtain ⟨x, ret, s', e1, e2, e3, e4, e5, e6, e7, e8, e9⟩ := h2 hc
    obtain ⟨pf, ns, at', b⟩ := x
    dsimp only at e4 e5 e6 e9
    subst e4 e5 e6
    exact ⟨b, ret, s', e1, e2, Or.inr ⟨hc, e9⟩, e8.1, Or.inr ⟨hc, e3, e8.2 (by rw [e7, hr])⟩⟩

/-! ## The invariant -/

/-- What holds between acts. -/
structure Inv (v : Version) (x : Xml) (srv : Srv) (ops : List ServerRpc.Op) (s : St) : Prop where
  msgid : s.msgid = s.asked.length
  ids : ∀ (k : Nat) (p : Nat × ServerRpc.Op), s.asked[k]? = some p → p.1 = k + 1 ∧ p.2 ∈ ops
  small : s.asked.length < 2 ^ 64
  le : s.srv.sent.length ≤ s.asked.length
  up : Frames v s.up ((s.asked.drop s.srv.sent.length).map fun p => rpcText x p.1 p.2)
  sent : ∀ (k : Nat) (y : Sent), s.srv.sent[k]? = some y → ∃ (p : Nat × ServerRpc.Op) (b : Body), s.asked[k]? = some p ∧ y = replyTo p.1 b ∧ Answers srv p.2 b
  calls : CallsOf srv ((s.asked.take s.srv.sent.length).map (·.2)) s.srv.calls
  reason : s.srv.status = .running → s.srv.reason = Poll.tNone
  ended : s.srv.status = .running ∨ ∃ c op l, s.srv.calls = l ++ [(c, op)] ∧ (srv.run c op .running Poll.tNone).reason ≠ Poll.tNone
  rle : s.replies.length ≤ s.srv.sent.length
  down : ∃ l, Pend v s.down l ∧ pend .reply s.kept l = (s.srv.sent.drop s.replies.length).map (fun y => chars (text (x.replyWrites y))) ∧
    s.notifs ++ pend .notif s.kept l = s.notified.map (fun n => chars (ntfText x n))
  handed : ∀ (k id : Nat) (res : ReplyRes) (b : Option Body), s.replies[k]? = some (id, res, b) → ∃ (p : Nat × ServerRpc.Op) (y : Sent), s.asked[k]? = some p ∧ s.srv.sent[k]? = some y ∧ b = some y.body ∧
    (res = .reply ↔ id = p.1) ∧ res ≠ .error

theorem start_inv (v : Version) (x : Xml) (srv : Srv) (ops : List ServerRpc.Op) (v11 : Bool) : Inv v x srv ops (start v11) where
  msgid := rfl
  ids := by intro k p h; simp [start] at h
  small := by simp [start]
  le := by simp [start]
  up := .nil
  sent := by intro k y h; simp [start] at h
  calls := .nil
  reason := fun _ => rfl
  ended := Or.inl rfl
  rle := by simp [start]
  down := ⟨[], ⟨.nil, by simp⟩, rfl, rfl⟩
  handed := by intro k id res b h; simp [start] at h

theorem rpc_inv {v : Version} {x : Xml} {srv : Srv} {ops : List ServerRpc.Op} {ntfs : List Notif} (hx : Faithful v x srv ops ntfs) {s : St} (hi : Inv v x srv ops s)
    (op : ServerRpc.Op) (w : List WriteEv) (hop : op ∈ ops) (hw : NoFail w) (hn : s.asked.length + 1 < 2 ^ 64) :
    ∃ s', sendRpc v x s op w = .ok s' ∧ Inv v x srv ops s' ∧ s'.asked = s.asked ++ [(s.asked.length + 1, op)] ∧ s'.notified = s.notified ∧ s'.srv = s.srv := by
  have hid : (s.msgid + 1) % 2 ^ 64 = s.asked.length + 1 := by rw [hi.msgid, Nat.mod_eq_of_lt hn]
  obtain ⟨f, h1, h2⟩ := put_spec v s.up w (rpcWrites x (s.asked.length + 1) op) hw (hx.rpcFits op hop _ hn)
  rw [text_rpcWrites] at h2
  unfold sendRpc
  rw [hid, h1]
  refine ⟨_, rfl, ?_, rfl, rfl, rfl⟩
  have hlt : ∀ (k : Nat) (p : Nat × ServerRpc.Op), s.asked[k]? = some p → (s.asked ++ [(s.asked.length + 1, op)])[k]? = some p := by
    intro k p h
    rw [List.getElem?_append_left (List.getElem?_eq_some_iff.1 h).1]; exact h
  have hle := hi.le
  constructor
  · simp
  · intro k p h
    dsimp only at h
    rw [List.getElem?_append] at h
    split at h
    · exact hi.ids k p h
    · rename_i hk
      have hk0 : k = s.asked.length := by
        have := (List.getElem?_eq_some_iff.1 h).1
        simp at this; omega
      subst hk0
      simp at h
      subst h
      exact ⟨rfl, hop⟩
  · simpa using hn
  · simp; omega
  · dsimp only
    rw [List.drop_append_of_le_length hle, List.map_append]
    exact hi.up.snoc h2
  · intro k y h
    obtain ⟨p, b, e1, e2, e3⟩ := hi.sent k y h
    exact ⟨p, b, hlt k p e1, e2, e3⟩
  · dsimp only
    rw [List.take_append_of_le_length hle]
    exact hi.calls
  · exact hi.reason
  · exact hi.ended
  · exact hi.rle
  · exact hi.down
  · intro k id res b h
    obtain ⟨p, y, e1, e2⟩ := hi.handed k id res b h
    exact ⟨p, y, hlt k p e1, e2⟩

theorem Pend.snoc {v : Version} {w f t : List Byte} {l : List (Kind × List Byte)} {k : Kind} (h : Pend v w l) (hf : Carries v f t)
    (hk : getMsgType (chars t) = some k) : Pend v (w ++ f) (l ++ [(k, t)]) := by
  refine ⟨by simpa using h.1.snoc hf, ?_⟩
  intro m hm
  rw [List.mem_append, List.mem_singleton] at hm
  rcases hm with hm | rfl
  · exact h.2 m hm
  · exact hk

theorem pend_snoc (k k' : Kind) (kept : List (Kind × Text)) (l : List (Kind × List Byte)) (t : List Byte) :
    pend k kept (l ++ [(k', t)]) = pend k kept l ++ (if k' = k then [chars t] else []) := by
  simp only [pend, List.map_append, buffered_append, List.append_assoc]
  congr 2
  by_cases h : k' = k <;> simp [buffered, h]

theorem notify_inv {v : Version} {x : Xml} {srv : Srv} {ops : List ServerRpc.Op} {ntfs : List Notif} (hx : Faithful v x srv ops ntfs) {s : St} (hi : Inv v x srv ops s)
    (n : Notif) (w : List WriteEv) (hn : n ∈ ntfs) (hw : NoFail w) :
    ∃ s', notify v x s n w = .ok s' ∧ Inv v x srv ops s' ∧ s'.asked = s.asked ∧ s'.notified = (if s.srv.status = .running then s.notified ++ [n] else s.notified) ∧
      s'.srv = s.srv := by
  unfold notify
  by_cases hs : s.srv.status = .running
  · rw [if_neg (by simpa using hs), if_pos hs]
    obtain ⟨f, h1, h2⟩ := put_spec v s.down w (notifWrites x n) hw (hx.ntfFits n hn)
    rw [text_notifWrites] at h2
    rw [h1]
    refine ⟨_, rfl, ?_, rfl, rfl, rfl⟩
    obtain ⟨l, g1, g2, g3⟩ := hi.down
    exact { hi with down := ⟨l ++ [(.notif, ntfText x n)], g1.snoc h2 (type_notif x n), by rw [pend_snoc]; simpa using g2, by
      dsimp only
      rw [pend_snoc, if_pos rfl, ← List.append_assoc, g3]; simp⟩ }
  · rw [if_pos (by simpa using hs), if_neg hs]
    exact ⟨s, rfl, hi, rfl, rfl, rfl⟩

theorem poll_inv {v : Version} {x : Xml} {srv : Srv} {ops : List ServerRpc.Op} {ntfs : List Notif} (hx : Faithful v x srv ops ntfs)
    (hcb : ∀ c op, (srv.run c op .running Poll.tNone).status = .running) {s : St} (hi : Inv v x srv ops s) (r : Reading) (w : List WriteEv) (hw : NoFail w) :
    (poll v x srv s r w = .lost ∧ r ≠ byteWise s.up) ∨ ∃ s', poll v x srv s r w = .ok s' ∧ Inv v x srv ops s' ∧ s'.asked = s.asked ∧ s'.notified = s.notified ∧
      (s.srv.status ≠ .running → s'.srv = s.srv) ∧ s'.srv.sent.length = (if s.srv.status = .running ∧ s.up ≠ [] then s.srv.sent.length + 1 else s.srv.sent.length) := by
  unfold poll
  by_cases hs : s.srv.status = .running ∧ s.up ≠ []
  · rw [if_neg (by simpa using hs), if_pos hs]
    obtain ⟨hs, hup⟩ := hs
    have hlt : s.srv.sent.length < s.asked.length := by
      rcases Nat.lt_or_ge s.srv.sent.length s.asked.length with h | h
      · exact h
      · have := hi.up
        rw [List.drop_eq_nil_of_le h] at this
        exact absurd this.eq_nil hup
    obtain ⟨p, hp⟩ : ∃ p, s.asked[s.srv.sent.length]? = some p := ⟨_, List.getElem?_eq_getElem hlt⟩
    have hdrop : s.asked.drop s.srv.sent.length = p :: s.asked.drop (s.srv.sent.length + 1) := by
      rw [List.drop_eq_getElem_cons hlt]
      rw [List.getElem?_eq_getElem hlt] at hp
      rw [Option.some.inj hp]
    obtain ⟨hpid, hpop⟩ := hi.ids _ _ hp
    have hsmall : p.1 < 2 ^ 64 := by have := hi.small; omega
    have hf := hi.up
    rw [hdrop, List.map_cons] at hf
    obtain ⟨-, hrecv, hslow⟩ := hf.head
    rcases hrecv r with h | ⟨rest, sc, h, hrest, -⟩
    · rw [h]; exact Or.inl ⟨rfl, fun hr => hslow (by rw [← hr]; exact h)⟩
    · rw [h]
      dsimp only
      rw [hx.rpcRead p.2 hpop p.1 hsmall]
      obtain ⟨b, ret, s', e1, e2, e3, e4, e5⟩ := serve_spec srv s.srv p.1 p.2 hs (hi.reason hs) (hx.isOp _ hpop) hcb
      rw [e1]
      dsimp only
      rw [e2, List.drop_left]
      obtain ⟨fit, hstart⟩ := hx.replyFits p.2 hpop p.1 hsmall b e3
      obtain ⟨f, h1, h2⟩ := put_spec v s.down w (x.replyWrites (replyTo p.1 b)) hw fit
      simp only [putAll, h1]
      refine Or.inr ⟨_, rfl, ?_, rfl, rfl, fun h => absurd hs h, by simp [e2]⟩
      have hlen : s'.sent.length = s.srv.sent.length + 1 := by simp [e2]
      have hrle := hi.rle
      have hsl : ∀ (k : Nat) (y : Sent), s.srv.sent[k]? = some y → s'.sent[k]? = some y := by
        intro k y hk
        rw [e2, List.getElem?_append_left (List.getElem?_eq_some_iff.1 hk).1]; exact hk
      constructor
      · exact hi.msgid
      · exact hi.ids
      · exact hi.small
      · dsimp only; rw [hlen]; omega
      · dsimp only; rw [hlen]; exact hrest
      · intro k y hk
        dsimp only at hk ⊢
        rw [e2, List.getElem?_append] at hk
        split at hk
        · exact hi.sent k y hk
        · have hk0 : k = s.srv.sent.length := by
            have := (List.getElem?_eq_some_iff.1 hk).1
            simp at this; omega
          subst hk0
          simp at hk
          exact ⟨p, b, hp, hk.symm, e3⟩
      · dsimp only
        rw [hlen, List.take_add_one, hp, Option.toList, List.map_append, List.map_cons, List.map_nil]
        rcases e5 with ⟨c, c1, c2, -⟩ | ⟨c1, c2, -⟩
        · rw [c2]; exact .call p.2 _ _ c hi.calls c1
        · rw [c2]; exact .skip p.2 _ _ hi.calls c1
      · exact e4
      · dsimp only
        rcases e5 with ⟨c, c1, c2, c3⟩ | ⟨c1, c2, c3⟩
        · rcases c3 with c3 | c3
          · exact Or.inl c3
          · exact Or.inr ⟨c, p.2, s.srv.calls, c2, c3⟩
        · exact Or.inl c3
      · dsimp only; omega
      · obtain ⟨l, g1, g2, g3⟩ := hi.down
        refine ⟨l ++ [(.reply, text (x.replyWrites (replyTo p.1 b)))], g1.snoc h2 (type_reply hstart), ?_, ?_⟩
        · dsimp only
          rw [pend_snoc, if_pos rfl, e2, List.drop_append_of_le_length hrle, List.map_append, g2]
          rfl
        · dsimp only
          rw [pend_snoc, if_neg (by decide), List.append_nil]
          exact g3
      · intro k id res b' hk
        obtain ⟨p', y, q1, q2, q3⟩ := hi.handed k id res b' hk
        exact ⟨p', y, q1, hsl k y q2, q3⟩
  · rw [if_pos, if_neg hs]
    · exact Or.inr ⟨s, rfl, hi, rfl, rfl, fun _ => rfl, rfl⟩
    · by_cases h : s.srv.status = .running
      · right; exact Decidable.byContradiction fun h2 => hs ⟨h, h2⟩
      · exact Or.inl h

theorem recvReply_inv {v : Version} {x : Xml} {srv : Srv} {ops : List ServerRpc.Op} {ntfs : List Notif} (hx : Faithful v x srv ops ntfs) {s : St}
    (hi : Inv v x srv ops s) (id : Nat) (lock : ClientMsg.Lock) (r : Reading) :
    (recvReply v x s id lock r = .lost ∧ (lock = .failed ∨ r ≠ byteWise s.down)) ∨ ∃ s', recvReply v x s id lock r = .ok s' ∧ Inv v x srv ops s' ∧ s'.asked = s.asked ∧ s'.notified = s.notified ∧ s'.srv = s.srv ∧
      (lock = .got → s'.replies.length = s.replies.length + 1 ∨ s'.down.length < s.down.length ∨ (s.down = [] ∧ buffered .reply s.kept = [])) := by
  obtain ⟨l, g1, g2, g3⟩ := hi.down
  obtain ⟨o, kept', down', l', e1, e2, e3⟩ := recv_spec v s .reply lock r l g1
  unfold recvReply
  rw [e1]
  rcases e3 with ⟨t, rfl, t1, t2⟩ | ⟨ho, t1, t4⟩ | ⟨rfl, ho⟩
  · right
    refine ⟨_, rfl, ?_, rfl, rfl, rfl, fun _ => Or.inl (by simp)⟩
    rw [g2] at t1
    have hlt : s.replies.length < s.srv.sent.length := by
      rcases Nat.lt_or_ge s.replies.length s.srv.sent.length with h | h
      · exact h
      · rw [List.drop_eq_nil_of_le h] at t1; cases t1
    obtain ⟨y, hy⟩ : ∃ y, s.srv.sent[s.replies.length]? = some y := ⟨_, List.getElem?_eq_getElem hlt⟩
    have hdrop : s.srv.sent.drop s.replies.length = y :: s.srv.sent.drop (s.replies.length + 1) := by
      rw [List.drop_eq_getElem_cons hlt]
      rw [List.getElem?_eq_getElem hlt] at hy
      rw [Option.some.inj hy]
    rw [hdrop, List.map_cons, List.cons.injEq] at t1
    obtain ⟨t1, t3⟩ := t1
    obtain ⟨p, b, p1, p2, p3⟩ := hi.sent _ _ hy
    obtain ⟨hpid, hpop⟩ := hi.ids _ _ p1
    have hsmall : p.1 < 2 ^ 64 := by
      have := hi.small
      have := (List.getElem?_eq_some_iff.1 p1).1
      omega
    have hfit := (hx.replyFits p.2 hpop p.1 hsmall b p3).1
    have hread := hx.replyRead p.2 hpop p.1 hsmall b p3
    have hbt : bytes t = text (x.replyWrites (replyTo p.1 b)) := by
      rw [← t1, p2]; exact bytes_chars hfit.2.2
    rw [hbt, hread]
    have hm := Props.reply_match_partial [] [] (digits p.1) p.1 id hsmall (by simp) (bytes_digits p.1)
    exact { hi with
      rle := by simp; omega
      down := ⟨l', e2, by dsimp only; rw [← t3]; simp, by dsimp only; rw [← t2 .notif (by decide)]; exact g3⟩
      handed := by
        intro k id' res b' hk
        dsimp only at hk
        rw [List.getElem?_append] at hk
        split at hk
        · exact hi.handed k id' res b' hk
        · have hk0 : k = s.replies.length := by
            have := (List.getElem?_eq_some_iff.1 hk).1
            simp at this; omega
          subst hk0
          simp at hk
          obtain ⟨k1, k2, k3⟩ := hk
          subst k1 k2 k3
          refine ⟨p, y, p1, hy, by rw [p2]; rfl, ?_, ?_⟩
          · simp only [ClientMsg.recvReply]
            exact hm.1.trans ⟨Eq.symm, Eq.symm⟩
          · simp only [ClientMsg.recvReply]
            exact hm.2.1 }
  · right
    have hinv : Inv v x srv ops { s with kept := kept', down := down' } :=
      { hi with down := ⟨l', e2, by dsimp only; rw [← t1]; exact g2, by dsimp only; rw [← t1]; exact g3⟩ }
    rcases ho with ⟨k', rfl⟩ | rfl
    · refine ⟨{ s with kept := kept', down := down' }, ?_, hinv, rfl, rfl, rfl, fun hl => Or.inr (t4 hl)⟩
      cases k' <;> rfl
    · exact ⟨{ s with kept := kept', down := down' }, rfl, hinv, rfl, rfl, rfl, fun hl => Or.inr (t4 hl)⟩
  · left
    dsimp only
    rw [if_pos ho.2]
    refine ⟨rfl, ?_⟩
    rcases ho with ⟨rfl, ho | ho⟩
    · exact Or.inr (fun h => next_slow g1 (by rw [← h]; exact ho))
    · exact Or.inl ho

theorem recvNotif_inv {v : Version} {x : Xml} {srv : Srv} {ops : List ServerRpc.Op} {s : St}
    (hi : Inv v x srv ops s) (lock : ClientMsg.Lock) (r : Reading) :
    (recvNotif v s lock r = .lost ∧ (lock = .failed ∨ r ≠ byteWise s.down)) ∨ ∃ s', recvNotif v s lock r = .ok s' ∧ Inv v x srv ops s' ∧ s'.asked = s.asked ∧ s'.notified = s.notified ∧ s'.srv = s.srv ∧
      (lock = .got → s'.notifs.length = s.notifs.length + 1 ∨ s'.down.length < s.down.length ∨ (s.down = [] ∧ buffered .notif s.kept = [])) := by
  obtain ⟨l, g1, g2, g3⟩ := hi.down
  obtain ⟨o, kept', down', l', e1, e2, e3⟩ := recv_spec v s .notif lock r l g1
  unfold recvNotif
  rw [e1]
  rcases e3 with ⟨t, rfl, t1, t2⟩ | ⟨ho, t1, t4⟩ | ⟨rfl, ho⟩
  · right
    refine ⟨_, rfl, ?_, rfl, rfl, rfl, fun _ => Or.inl (by simp)⟩
    exact { hi with down := ⟨l', e2, by dsimp only; rw [← t2 .reply (by decide)]; exact g2, by
      dsimp only
      rw [← g3, t1]; simp⟩ }
  · right
    have hinv : Inv v x srv ops { s with kept := kept', down := down' } :=
      { hi with down := ⟨l', e2, by dsimp only; rw [← t1]; exact g2, by dsimp only; rw [← t1]; exact g3⟩ }
    rcases ho with ⟨k', rfl⟩ | rfl
    · refine ⟨{ s with kept := kept', down := down' }, ?_, hinv, rfl, rfl, rfl, fun hl => Or.inr (t4 hl)⟩
      cases k' <;> rfl
    · exact ⟨{ s with kept := kept', down := down' }, rfl, hinv, rfl, rfl, rfl, fun hl => Or.inr (t4 hl)⟩
  · left
    dsimp only
    rw [if_pos ho.2]
    refine ⟨rfl, ?_⟩
    rcases ho with ⟨rfl, ho | ho⟩
    · exact Or.inr (fun h => next_slow g1 (by rw [← h]; exact ho))
    · exact Or.inl ho

end Verif.Dialog
