import Verif.Spec.ConfUsers
import Verif.Lemmas.ConfStore

/-! Lemmas for host keys and users of an SSH endpoint. -/

namespace Verif.ConfUsers
open Verif.ConfTree (Op Meta current ownOp)
open Verif.ConfStore

/-! ## Lists -/

theorem set_eq_modify {α : Type} (l : List α) (i : Nat) (a : α) (x : α) (h : l[i]? = some a) : l.set i x = l.modify i (fun _ => x) := by
  induction l generalizing i with
  | nil => simp at h
  | cons y t ih =>
    cases i with
    | zero => simp
    | succ i => simp at h ⊢; exact ih i h

theorem set_eq_modify' {α : Type} (l : List α) (i : Nat) (a : α) (f : α → α) (h : l[i]? = some a) : l.set i (f a) = l.modify i f := by
  induction l generalizing i with
  | nil => simp at h
  | cons y t ih =>
    cases i with
    | zero => simp at h; simp [h]
    | succ i => simp at h ⊢; exact ih i h

theorem set_self {α : Type} (l : List α) (i : Nat) (a : α) (h : l[i]? = some a) : l.set i a = l := by
  induction l generalizing i with
  | nil => simp
  | cons y t ih =>
    cases i with
    | zero => simp at h; simp [h]
    | succ i => simp at h ⊢; exact ih i h

theorem findIdx_set {α : Type} (key : α → Nat) (l : List α) (n i : Nat) (a x : α) (h : l.findIdx? (fun y => key y == n) = some i)
    (hi : l[i]? = some a) (hx : key x = key a) : (l.set i x).findIdx? (fun y => key y == n) = some i := by
  induction l generalizing i with
  | nil => simp at h
  | cons y t ih =>
    by_cases hy : key y = n
    · simp [List.findIdx?_cons, hy] at h
      subst h
      simp at hi; subst hi
      simp [List.findIdx?_cons, hx, hy]
    · have hb : (key y == n) = false := beq_false_of_ne hy
      simp only [List.findIdx?_cons, hb, Bool.false_eq_true, if_false] at h
      cases hj : t.findIdx? (fun y => key y == n) with
      | none => rw [hj] at h; simp at h
      | some j =>
        rw [hj] at h; simp at h; subst h
        simp at hi
        simp [List.findIdx?_cons, hb, ih j hj hi]

theorem get_set {α : Type} (l : List α) (i : Nat) (a x : α) (hi : l[i]? = some a) : (l.set i x)[i]? = some x := by
  have : i < l.length := by
    rcases Nat.lt_or_ge i l.length with hc | hc
    · exact hc
    · rw [List.getElem?_eq_none hc] at hi; cases hi
  simp [this]

theorem set_set {α : Type} (l : List α) (i : Nat) (x y : α) : (l.set i x).set i y = l.set i y := by simp

theorem holds_set {α β : Type} (key : α → Nat) (R : α → β → Prop) (l : List α) (m : Map β) (h : Holds key R l m) (n i : Nat) (a x : α)
    (hi : l.findIdx? (fun x => key x == n) = some i) (hia : l[i]? = some a) (hk : key x = key a) (y : β) (hr : R x y) :
    Holds key R (l.set i x) (upd m n (some y)) := by
  obtain ⟨hn, hf⟩ := h
  have hmk : (l.set i x).map key = l.map key := by
    clear hn hf hi
    induction l generalizing i with
    | nil => simp
    | cons z t ih =>
      cases i with
      | zero => simp at hia; subst hia; simp [hk]
      | succ i => simp only [List.getElem?_cons_succ] at hia; simp only [List.set_cons_succ, List.map_cons, ih i hia]
  have hnd : ((l.set i x).map key).Nodup := hmk ▸ hn
  have hlt : i < l.length := by
    rcases Nat.lt_or_ge i l.length with hc | hc
    · exact hc
    · rw [List.getElem?_eq_none hc] at hia; cases hia
  have han : key a = n := by
    have := List.findIdx?_eq_some_iff_getElem.mp hi
    obtain ⟨h1, h2, -⟩ := this
    rw [List.getElem?_eq_getElem h1] at hia
    cases hia
    simpa using h2
  have hxm : x ∈ l.set i x := List.mem_iff_getElem?.mpr ⟨i, get_set l i a x hia⟩
  refine ⟨hnd, fun k => ?_⟩
  by_cases hkn : k = n
  · subst hkn
    rw [upd_same]
    have := find_unique key _ hnd x hxm
    rw [hk, han] at this
    rw [this]; exact hr
  · rw [upd_other _ _ _ _ hkn]
    have := find_ext key (l.set i x) l hnd hn k k (by
      intro b
      constructor
      · rintro ⟨h1, h2⟩
        rcases List.mem_or_eq_of_mem_set h1 with h3 | h3
        · exact ⟨h3, h2⟩
        · subst h3; exact absurd (h2.symm.trans (hk.trans han)) hkn
      · rintro ⟨h1, h2⟩
        obtain ⟨j, hj⟩ := List.mem_iff_getElem?.mp h1
        refine ⟨List.mem_iff_getElem?.mpr ⟨j, ?_⟩, h2⟩
        have hji : j ≠ i := by
          rintro rfl
          rw [hia] at hj; cases hj
          exact hkn (h2.symm.trans han)
        rw [List.getElem?_set_ne (Ne.symm hji)]; exact hj)
    rw [this]; exact hf k

/-! ## Parts of the state -/

mutual
/-- All nodes that are visited are as given. -/
def visits (ok : Label → Nat → Bool) : Tree → Bool
  | .node l v m ch => ok l v && (m == .delete || visitsL ok ch)
/-- The same for lists. -/
def visitsL (ok : Label → Nat → Bool) : List Tree → Bool
  | [] => true
  | t :: ts => visits ok t && visitsL ok ts
end

theorem visitsL_append (ok : Label → Nat → Bool) (a b : List Tree) : visitsL ok (a ++ b) = (visitsL ok a && visitsL ok b) := by
  induction a with
  | nil => simp [visitsL]
  | cons t a ih => simp [visitsL, ih, Bool.and_assoc]

theorem visitsL_map {α : Type} (ok : Label → Nat → Bool) (f : α → Tree) (l : List α) (h : ∀ x ∈ l, visits ok (f x) = true) :
    visitsL ok (l.map f) = true := by
  induction l with
  | nil => simp [visitsL]
  | cons x l ih =>
    simp only [List.map_cons, visitsL, Bool.and_eq_true]
    exact ⟨h x (by simp), ih (fun y hy => h y (by simp [hy]))⟩

/-- If the callbacks change only a part of the state, walking through a tree can be followed on that part. -/
structure Focus {σ τ : Type} (cb : List Anc → Nat → Op → σ → Res σ) (cb1 : List Anc → Nat → Op → τ → Res τ) (put : τ → σ) where
  Good : List Anc → Prop
  Inv : τ → Prop
  ok : Label → Nat → Bool
  good : ∀ l v key path, ok l v = true → Good path → Good (⟨l, key⟩ :: path)
  step : ∀ l v key path op x x', ok l v = true → Good path → Inv x → cb1 (⟨l, key⟩ :: path) v op x = .ok x' →
    cb (⟨l, key⟩ :: path) v op (put x) = .ok (put x') ∧ Inv x'

mutual
theorem focus {σ τ : Type} {cb : List Anc → Nat → Op → σ → Res σ} {cb1 : List Anc → Nat → Op → τ → Res τ} {put : τ → σ}
    (F : Focus cb cb1 put) : ∀ (t : Tree) (p : Op) (path : List Anc) (x x' : τ), F.Good path → F.Inv x → visits F.ok t = true →
    parse cb1 p path x t = .ok x' → parse cb p path (put x) t = .ok (put x') ∧ F.Inv x'
  | .node l v m ch, p, path, x, x', hg, hi, hv, h => by
    simp only [visits, Bool.and_eq_true, Bool.or_eq_true, beq_iff_eq] at hv
    have hg' := F.good l v ((ch.head?).map Tree.val) path hv.1 hg
    by_cases h1 : current m p = .unknown
    · simp [parse, h1] at h
    by_cases h2 : current m p = .none
    · simp only [parse, h2, reduceCtorEq, if_false, if_true] at h ⊢
      rcases hv.2 with hm | hch
      · subst hm; simp [current, ownOp] at h2
      · exact focusL F ch _ _ _ _ hg' hi hch h
    · simp only [parse, h1, h2, if_false] at h ⊢
      cases hc : cb1 (⟨l, (ch.head?).map Tree.val⟩ :: path) v (current m p) x with
      | fail y => rw [hc] at h; cases h
      | ub => rw [hc] at h; cases h
      | ok y =>
        rw [hc] at h
        obtain ⟨e1, e2⟩ := F.step l v _ path _ x y hv.1 hg hi hc
        rw [e1]
        dsimp only at h ⊢
        by_cases h3 : current m p = .delete
        · simp only [h3, if_true, Res.ok.injEq] at h ⊢; subst h; exact ⟨rfl, e2⟩
        · simp only [h3, if_false] at h ⊢
          rcases hv.2 with hm | hch
          · subst hm; simp [current, ownOp] at h3
          · exact focusL F ch _ _ _ _ hg' e2 hch h
theorem focusL {σ τ : Type} {cb : List Anc → Nat → Op → σ → Res σ} {cb1 : List Anc → Nat → Op → τ → Res τ} {put : τ → σ}
    (F : Focus cb cb1 put) : ∀ (ts : List Tree) (p : Op) (path : List Anc) (x x' : τ), F.Good path → F.Inv x → visitsL F.ok ts = true →
    parseList cb1 p path x ts = .ok x' → parseList cb p path (put x) ts = .ok (put x') ∧ F.Inv x'
  | [], p, path, x, x', hg, hi, hv, h => by
    simp only [parseList, Res.ok.injEq] at h ⊢; subst h; exact ⟨rfl, hi⟩
  | t :: ts, p, path, x, x', hg, hi, hv, h => by
    simp only [visitsL, Bool.and_eq_true] at hv
    simp only [parseList] at h ⊢
    cases hc : parse cb1 p path x t with
    | fail y => rw [hc] at h; cases h
    | ub => rw [hc] at h; cases h
    | ok y =>
      rw [hc] at h
      obtain ⟨e1, e2⟩ := focus F t p path x y hg hi hv.1 hc
      rw [e1]
      exact focusL F ts p path y x' hg e2 hv.2 h
end

/-! ## From the endpoint to one user or host key -/

/-- Labels that are not below a user. -/
def notUser : Label → Bool
  | .user => true
  | .hostKey => true
  | .serverIdentity => true
  | .privateKeyFormat => true
  | .cleartextPrivateKey => true
  | .centralKeystoreReference => true
  | _ => false

/-- Nodes below a user with supported formats. -/
def inUser (l : Label) (v : Nat) : Bool := !notUser l && (l != .publicKeyFormat || pubSupported v)

/-- No node of host keys on the path. -/
def cleanPath (path : List Anc) : Prop := ∀ a ∈ path, a.label ≠ .hostKey ∧ a.label ≠ .serverIdentity

theorem parentN_clean (path : List Anc) (n : Nat) (h : cleanPath path) : parentN path n .hostKey = false ∧ parentN path n .serverIdentity = false := by
  simp only [parentN]
  cases hp : path[n]? with
  | none => simp
  | some a =>
    have := h a (List.mem_iff_getElem?.mpr ⟨n, hp⟩)
    simp [this]

theorem userCb_name (spki : Nat → Bool) (path : List Anc) (v : Nat) (op : Op) (u u' : User) (h : userCb spki path v op u = .ok u') : u'.name = u.name := by
  simp only [userCb] at h
  have ha : ∀ k (u : User), (addKey k u).name = u.name := by intro k u; simp only [addKey]; split <;> rfl
  have hm : ∀ i f (u : User), (modKey i f u).name = u.name := by intro i f u; simp only [modKey]; split <;> rfl
  have hd : ∀ i (u : User), (delKey i u).name = u.name := by
    intro i u; simp only [delKey]; split
    · split <;> rfl
    · rfl
  have hr : ∀ (a b : User), (Res.ok a = Res.ok b) = (a = b) := fun a b => by simp
  split at h
  · simp only [userPublicKey] at h
    repeat' split at h
    all_goals first | (cases h; done) | (rw [hr] at h; subst h; first | rfl | exact (ha _ _).trans rfl | exact hm _ _ _ | exact hd _ _)
  · simp only [userPubFormat] at h
    repeat' split at h
    all_goals first | (cases h; done) | (rw [hr] at h; subst h; first | rfl | exact hm _ _ _)
  · simp only [userTsRef] at h
    repeat' split at h
    all_goals (rw [hr] at h; rw [← h])
  · simp only [userSystemKeys] at h
    repeat' split at h
    all_goals (rw [hr] at h; rw [← h])
  · simp only [userPublicKeys, delKeys] at h
    repeat' split at h
    all_goals first | (cases h; done) | (rw [hr] at h; rw [← h])
  · simp only [userPassword] at h
    repeat' split at h
    all_goals (rw [hr] at h; rw [← h])
  · simp only [userKbdint, hr] at h; rw [← h]
  · simp only [userNone, hr] at h; rw [← h]
  · rw [hr] at h; rw [← h]

theorem withUser_ok (path : List Anc) (s : Ssh) (f : User → Res User) (n i : Nat) (u : User) (hk : keyOr path .user = some n)
    (hi : s.users.findIdx? (fun u => u.name == n) = some i) (hu : s.users[i]? = some u) (u' : User) (hf : f u = .ok u') :
    withUser path s f = .ok { s with users := s.users.set i u' } := by
  simp only [withUser, hk, Option.bind_some, hi, hu, hf]

theorem sshCb_user (spki : Nat → Bool) (l : Label) (key : Option Nat) (path : List Anc) (v : Nat) (op : Op) (s : Ssh) (n i : Nat) (u u' : User)
    (hc : cleanPath (⟨l, key⟩ :: path)) (hl : notUser l = false) (hv : l = .publicKeyFormat → pubSupported v = true)
    (hk : keyOr (⟨l, key⟩ :: path) .user = some n) (hi : s.users.findIdx? (fun u => u.name == n) = some i) (hu : s.users[i]? = some u)
    (hf : userCb spki (⟨l, key⟩ :: path) v op u = .ok u') :
    sshCb spki (⟨l, key⟩ :: path) v op s = .ok { s with users := s.users.set i u' } := by
  have hw := withUser_ok (⟨l, key⟩ :: path) s (userCb spki (⟨l, key⟩ :: path) v op) n i u hk hi hu u' hf
  have hs : u = u' → (Res.ok s : Res Ssh) = .ok { s with users := s.users.set i u' } := by
    rintro rfl; rw [set_self _ _ _ hu]
  have hp := fun n => parentN_clean (⟨l, key⟩ :: path) n hc
  have key0 : ∀ x : Res User, (x = .ok u') → x = .ok u → u = u' := by
    intro x h1 h2; rw [h1] at h2; cases h2; rfl
  cases l <;> simp only [notUser, Bool.true_eq_false] at hl <;>
    simp only [sshCb, List.head?_cons, Option.map_some, (hp 3).1, (hp 4).2, Bool.false_eq_true, if_false] <;>
    first
    | exact hw
    | (exact hs (key0 _ hf rfl))
    | skip
  · split
    · exact hw
    · rename_i h
      simp only [Bool.or_eq_true, not_or, Bool.not_eq_true] at h
      refine hs (key0 _ hf ?_)
      simp only [userCb, List.head?_cons, Option.map_some, userPublicKey, h.1, h.2, Bool.false_eq_true, if_false]
  · rw [hv rfl]
    simp only [Bool.not_true, Bool.false_eq_true, if_false]
    split
    · exact hw
    · rename_i h
      refine hs (key0 _ hf ?_)
      simp only [userCb, List.head?_cons, Option.map_some, userPubFormat, h, Bool.false_eq_true, if_false]
  · split
    · exact hw
    · rename_i h
      refine hs (key0 _ hf ?_)
      simp only [userCb, List.head?_cons, Option.map_some, userPublicKeys, h, if_false]
  · split
    · exact hw
    · rename_i h
      refine hs (key0 _ hf ?_)
      simp only [userCb, List.head?_cons, Option.map_some, userTsRef, h, Bool.false_eq_true, if_false]

theorem keyOr_cons (l' l : Label) (a : Option Nat) (path : List Anc) (h : l' ≠ l) : keyOr (⟨l', a⟩ :: path) l = keyOr path l := by
  simp only [keyOr, keyOf_cons _ _ _ _ h]

/-- Following one user. -/
def userFocus (spki : Nat → Bool) (s : Ssh) (n i : Nat) (u : User) (hi : s.users.findIdx? (fun u => u.name == n) = some i)
    (hu : s.users[i]? = some u) : Focus (sshCb spki) (userCb spki) (fun x => { s with users := s.users.set i x }) where
  Good path := cleanPath path ∧ keyOr path .user = some n
  Inv x := x.name = u.name
  ok := inUser
  good := by
    intro l v key path ho hg
    simp only [inUser, Bool.and_eq_true, Bool.not_eq_true'] at ho
    refine ⟨?_, ?_⟩
    · intro a ha
      rcases List.mem_cons.mp ha with rfl | h
      · constructor <;> (intro hc; simp only at hc; subst hc; simp [notUser] at ho)
      · exact hg.1 a h
    · rw [keyOr_cons _ _ _ _ (by intro hc; subst hc; simp [notUser] at ho)]; exact hg.2
  step := by
    intro l v key path op x x' ho hg hx hc
    have hn := userCb_name spki _ v op x x' hc
    simp only [inUser, Bool.and_eq_true, Bool.not_eq_true'] at ho
    have hgg : cleanPath (⟨l, key⟩ :: path) ∧ keyOr (⟨l, key⟩ :: path) .user = some n := by
      refine ⟨?_, ?_⟩
      · intro a ha
        rcases List.mem_cons.mp ha with rfl | h
        · constructor <;> (intro hc; simp only at hc; subst hc; simp [notUser] at ho)
        · exact hg.1 a h
      · rw [keyOr_cons _ _ _ _ (by intro hc; subst hc; simp [notUser] at ho)]; exact hg.2
    refine ⟨?_, hn.trans hx⟩
    have := sshCb_user spki l key path v op { s with users := s.users.set i x } n i x x' hgg.1 ho.1
      (by intro hl; subst hl; simpa using ho.2) hgg.2 (findIdx_set User.name _ n i u x hi hu hx) (get_set _ _ _ _ hu) hc
    rw [this]
    simp only [set_set]

/-- Labels below a host key. -/
def hostLabel : Label → Bool
  | .name => true
  | .publicKey => true
  | .inlineDefinition => true
  | .publicKeyFormat => true
  | .privateKeyFormat => true
  | .cleartextPrivateKey => true
  | .centralKeystoreReference => true
  | _ => false

/-- Nodes below a host key with supported formats. -/
def inHost (l : Label) (v : Nat) : Bool := hostLabel l && (l != .publicKeyFormat || pubSupported v)

/-- No node of users on the path, and the host key in `server-identity`. -/
def hostPath (path : List Anc) : Prop := ∀ a ∈ path, a.label ≠ .clientAuthentication

theorem parentN_host (path : List Anc) (n : Nat) (h : hostPath path) : parentN path n .clientAuthentication = false := by
  simp only [parentN]
  cases hp : path[n]? with
  | none => simp
  | some a =>
    have := h a (List.mem_iff_getElem?.mpr ⟨n, hp⟩)
    simp [this]

theorem hostCb_name (spki : Nat → Bool) (path : List Anc) (v : Nat) (op : Op) (u u' : HostKey) (h : hostCb spki path v op u = .ok u') : u'.name = u.name := by
  simp only [hostCb] at h
  have hr : ∀ (a b : HostKey), (Res.ok a = Res.ok b) = (a = b) := fun a b => by simp
  split at h
  · simp only [hostPublicKey] at h
    repeat' split at h
    all_goals first | (cases h; done) | (rw [hr] at h; subst h; rfl)
  · simp only [hostPubFormat] at h
    repeat' split at h
    all_goals first | (cases h; done) | (rw [hr] at h; subst h; rfl)
  · simp only [hostPrivFormat] at h
    repeat' split at h
    all_goals first | (cases h; done) | (rw [hr] at h; subst h; rfl)
  · simp only [hostPrivKey] at h
    repeat' split at h
    all_goals first | (cases h; done) | (rw [hr] at h; subst h; rfl)
  · simp only [hostKsRef] at h
    repeat' split at h
    all_goals first | (cases h; done) | (rw [hr] at h; subst h; rfl)
  · rw [hr] at h; rw [← h]

theorem withHost_ok (path : List Anc) (s : Ssh) (f : HostKey → Res HostKey) (n i : Nat) (u : HostKey) (hk : keyOr path .hostKey = some n)
    (hi : s.hostKeys.findIdx? (fun u => u.name == n) = some i) (hu : s.hostKeys[i]? = some u) (u' : HostKey) (hf : f u = .ok u') :
    withHostKey path s f = .ok { s with hostKeys := s.hostKeys.set i u' } := by
  simp only [withHostKey, hk, Option.bind_some, hi, hu, hf]

theorem sshCb_host (spki : Nat → Bool) (l : Label) (key : Option Nat) (path : List Anc) (v : Nat) (op : Op) (s : Ssh) (n i : Nat) (u u' : HostKey)
    (hc : hostPath (⟨l, key⟩ :: path)) (hl : hostLabel l = true) (hv : l = .publicKeyFormat → pubSupported v = true)
    (hk : keyOr (⟨l, key⟩ :: path) .hostKey = some n) (hi : s.hostKeys.findIdx? (fun u => u.name == n) = some i) (hu : s.hostKeys[i]? = some u)
    (hf : hostCb spki (⟨l, key⟩ :: path) v op u = .ok u') :
    sshCb spki (⟨l, key⟩ :: path) v op s = .ok { s with hostKeys := s.hostKeys.set i u' } := by
  have hw := withHost_ok (⟨l, key⟩ :: path) s (hostCb spki (⟨l, key⟩ :: path) v op) n i u hk hi hu u' hf
  have hs : u = u' → (Res.ok s : Res Ssh) = .ok { s with hostKeys := s.hostKeys.set i u' } := by
    rintro rfl; rw [set_self _ _ _ hu]
  have hp := fun n => parentN_host (⟨l, key⟩ :: path) n hc
  have key0 : ∀ x : Res HostKey, (x = .ok u') → x = .ok u → u = u' := by
    intro x h1 h2; rw [h1] at h2; cases h2; rfl
  cases l <;> simp only [hostLabel, Bool.false_eq_true] at hl <;>
    simp only [sshCb, List.head?_cons, Option.map_some, hp 5, hp 6, Bool.or_false, Bool.false_eq_true, if_false] <;>
    first
    | exact hw
    | (exact hs (key0 _ hf rfl))
    | skip
  · split
    · exact hw
    · rename_i h
      refine hs (key0 _ hf ?_)
      simp only [hostCb, List.head?_cons, Option.map_some, hostPublicKey, h, Bool.false_eq_true, if_false]
  · rw [hv rfl]
    simp only [Bool.not_true, Bool.false_eq_true, if_false]
    split
    · exact hw
    · rename_i h
      refine hs (key0 _ hf ?_)
      simp only [hostCb, List.head?_cons, Option.map_some, hostPubFormat, h, Bool.false_eq_true, if_false]
  · split
    · exact hw
    · rename_i h
      refine hs (key0 _ hf ?_)
      simp only [hostCb, List.head?_cons, Option.map_some, hostKsRef, h, Bool.false_eq_true, if_false]

/-- Following one host key. -/
def hostFocus (spki : Nat → Bool) (s : Ssh) (n i : Nat) (u : HostKey) (hi : s.hostKeys.findIdx? (fun u => u.name == n) = some i)
    (hu : s.hostKeys[i]? = some u) : Focus (sshCb spki) (hostCb spki) (fun x => { s with hostKeys := s.hostKeys.set i x }) where
  Good path := hostPath path ∧ keyOr path .hostKey = some n
  Inv x := x.name = u.name
  ok := inHost
  good := by
    intro l v key path ho hg
    simp only [inHost, Bool.and_eq_true] at ho
    refine ⟨?_, ?_⟩
    · intro a ha
      rcases List.mem_cons.mp ha with rfl | h
      · intro hc; simp only at hc; subst hc; simp [hostLabel] at ho
      · exact hg.1 a h
    · rw [keyOr_cons _ _ _ _ (by intro hc; subst hc; simp [hostLabel] at ho)]; exact hg.2
  step := by
    intro l v key path op x x' ho hg hx hc
    have hn := hostCb_name spki _ v op x x' hc
    simp only [inHost, Bool.and_eq_true] at ho
    have hgg : hostPath (⟨l, key⟩ :: path) ∧ keyOr (⟨l, key⟩ :: path) .hostKey = some n := by
      refine ⟨?_, ?_⟩
      · intro a ha
        rcases List.mem_cons.mp ha with rfl | h
        · intro hc; simp only at hc; subst hc; simp [hostLabel] at ho
        · exact hg.1 a h
      · rw [keyOr_cons _ _ _ _ (by intro hc; subst hc; simp [hostLabel] at ho)]; exact hg.2
    refine ⟨?_, hn.trans hx⟩
    have := sshCb_host spki l key path v op { s with hostKeys := s.hostKeys.set i x } n i x x' hgg.1 ho.1
      (by intro hl; subst hl; simpa using ho.2) hgg.2 (findIdx_set HostKey.name _ n i u x hi hu hx) (get_set _ _ _ _ hu) hc
    rw [this]
    simp only [set_set]

/-! ## Keys of a user -/

/-- The pointer to an array of keys. -/
def ptrOf (l : List PubKey) : Ptr := if l = [] then .null else .keys l

/-- A user with the keys given in the configuration. -/
def inl (u : User) (l : List PubKey) : User := { u with store := .local, ptr := ptrOf l, count := l.length }

theorem inl_keys (u : User) (l : List PubKey) : (inl u l).keys? = some l := by
  cases l with
  | nil => simp [inl, User.keys?]
  | cons x t => simp [inl, User.keys?, ptrOf]

theorem inl_store (u : User) (l : List PubKey) : { inl u l with store := .local } = inl u l := rfl

theorem inl_add (u : User) (l : List PubKey) (k : Nat) : addKey k (inl u l) = inl u (l ++ [⟨k, 0, none⟩]) := by
  simp only [addKey, inl_keys]
  simp [inl, ptrOf]

theorem swapDel_length {α : Type} (l : List α) (i : Nat) (hi : i < l.length) : (swapDel l i).length = l.length - 1 := by
  have := (swapDel_perm l i hi).length_eq
  simp at this; omega

theorem inl_del (u : User) (l : List PubKey) (i : Nat) (hi : i < l.length) : delKey i (inl u l) = inl u (swapDel l i) := by
  have hl := swapDel_length l i hi
  simp only [delKey, inl_keys]
  by_cases h1 : l.length = 1
  · have : swapDel l i = [] := List.eq_nil_of_length_eq_zero (by omega)
    simp [inl, ptrOf, h1, this]
  · have : swapDel l i ≠ [] := by intro hc; rw [hc] at hl; simp at hl; omega
    simp [inl, ptrOf, h1, this, hl]

theorem inl_mod (u : User) (l : List PubKey) (i : Nat) (f : PubKey → PubKey) (hi : i < l.length) : modKey i f (inl u l) = inl u (l.modify i f) := by
  simp only [modKey, inl_keys]
  have : l.modify i f ≠ [] := by intro hc; have := congrArg List.length hc; rw [List.length_modify, List.length_nil] at this; omega
  simp [inl, ptrOf, this]

/-- The path of `inline-definition` of a user. -/
def keysPath (a b : Option Nat) (n : Nat) (c d : Option Nat) (rest : List Anc) : List Anc :=
  ⟨.inlineDefinition, a⟩ :: ⟨.publicKeys, b⟩ :: ⟨.user, some n⟩ :: ⟨.users, c⟩ :: ⟨.clientAuthentication, d⟩ :: rest

/-- The keys held by a user. -/
def KeysInv (u0 : User) (u : User) (m : Map (Nat × Nat)) : Prop := ∃ l, u = inl u0 l ∧ HoldsPubs l m

theorem pubKeyKey_head (k : Nat) (path : List Anc) : pubKeyKey (⟨.publicKey, some k⟩ :: path) = .found k := by
  simp [pubKeyKey, List.find?]

theorem pubKeyKey_cons (l : Label) (a : Option Nat) (k : Nat) (path : List Anc) (h : l ≠ .publicKey ∨ a = none) :
    pubKeyKey (⟨l, a⟩ :: ⟨.publicKey, some k⟩ :: path) = .found k := by
  have : (l == .publicKey && a.isSome) = false := by
    rcases h with h | h
    · simp [beq_false_of_ne h]
    · simp [h]
  simp [pubKeyKey, List.find?, this]

theorem getPubkey_ok (path : List Anc) (u0 : User) (l : List PubKey) (k i : Nat) (hk : pubKeyKey path = .found k)
    (hi : l.findIdx? (fun c => c.name == k) = some i) : getPubkey path (inl u0 l) = .found i := by
  simp only [getPubkey, hk, inl_keys, hi]

theorem name_cb (spki : Nat → Bool) (p : Op) (hp : p = .create ∨ p = .none) (path : List Anc) (u : User) (n : Nat) :
    parse (userCb spki) p path u (leaf .name n) = .ok u := by
  rcases hp with rfl | rfl <;> simp [leaf, parse, current, ownOp, userCb, parseList]

theorem key_format (spki : Nat → Bool) (p : Op) (m : Meta) (hs : current m p = .create ∨ current m p = .replace) (k : Nat) (a b : Option Nat) (n : Nat) (c d : Option Nat) (rest : List Anc)
    (u0 : User) (l : List PubKey) (i v : Nat) (hi : l.findIdx? (fun c => c.name == k) = some i) (hlt : i < l.length) :
    parse (userCb spki) p (⟨.publicKey, some k⟩ :: keysPath a b n c d rest) (inl u0 l) (leaf .publicKeyFormat v m) =
      .ok (inl u0 (l.modify i (fun c => { c with type := v }))) := by
  have hg := getPubkey_ok (⟨.publicKeyFormat, none⟩ :: ⟨.publicKey, some k⟩ :: keysPath a b n c d rest) u0 l k i
    (pubKeyKey_cons _ _ _ _ (Or.inr rfl)) hi
  have hset : setting (current m p) = true := by rcases hs with h | h <;> rw [h] <;> rfl
  rw [leaf, parse_set _ _ _ _ _ (inl u0 (l.modify i (fun c => { c with type := v }))) _ _ _ _ rfl hs]
  · rfl
  · simp only [userCb, List.head?_nil, List.head?_cons, Option.map_none, Option.map_some, userPubFormat]
    simp only [hg, show parentN (⟨.publicKeyFormat, none⟩ :: ⟨.publicKey, some k⟩ :: keysPath a b n c d rest) 6 .clientAuthentication = true from rfl,
      hset, if_true, inl_mod u0 l i _ hlt]

theorem key_data (spki : Nat → Bool) (p : Op) (m : Meta) (hs : current m p = .create ∨ current m p = .replace) (k : Nat) (a b : Option Nat) (n : Nat) (c d : Option Nat) (rest : List Anc)
    (u0 : User) (l : List PubKey) (i v : Nat) (hv : spki v = false) (hi : l.findIdx? (fun c => c.name == k) = some i) (hlt : i < l.length) :
    parse (userCb spki) p (⟨.publicKey, some k⟩ :: keysPath a b n c d rest) (inl u0 l) (leaf .publicKey v m) =
      .ok (inl u0 (l.modify i (fun c => { c with data := some v }))) := by
  have hg := getPubkey_ok (⟨.publicKey, none⟩ :: ⟨.publicKey, some k⟩ :: keysPath a b n c d rest) u0 l k i
    (pubKeyKey_cons _ _ _ _ (Or.inr rfl)) hi
  have hset : setting (current m p) = true := by rcases hs with h | h <;> rw [h] <;> rfl
  rw [leaf, parse_set _ _ _ _ _ (inl u0 (l.modify i (fun c => { c with data := some v }))) _ _ _ _ rfl hs]
  · rfl
  · simp only [userCb, List.head?_nil, List.head?_cons, Option.map_none, Option.map_some, userPublicKey]
    simp only [hg, show parentN (⟨.publicKey, none⟩ :: ⟨.publicKey, some k⟩ :: keysPath a b n c d rest) 6 .clientAuthentication = true from rfl,
      show parentN (⟨.publicKey, none⟩ :: ⟨.publicKey, some k⟩ :: keysPath a b n c d rest) 5 .clientAuthentication = false from rfl, hset, hv, if_true, Bool.false_eq_true, if_false, inl_mod u0 l i _ hlt]

theorem key_create (spki : Nat → Bool) (p : Op) (mt : Meta) (hs : current mt p = .create) (a b : Option Nat) (n : Nat) (c d : Option Nat) (rest : List Anc)
    (u0 u : User) (l : List PubKey) (hu : { u with store := .local } = inl u0 l) (m m' : Map (Nat × Nat)) (hl : HoldsPubs l m) (k : Nat) (q : Nat × Nat)
    (h : patch (sshKeyOk spki) (fun p c => sshKeyOk spki ((c : PubChange).fmt.getD p.1, c.data.getD p.2)) m (.create k q) = some m') :
    ∃ u', parse (userCb spki) p (keysPath a b n c d rest) u (pubData k q mt) = .ok u' ∧ KeysInv u0 u' m' := by
  obtain ⟨h1, y, h2, h3⟩ := patch_create _ _ _ _ _ _ h
  subst h3
  have hq : q = y ∧ spki q.2 = false := by
    simp only [sshKeyOk] at h2
    split at h2
    · rename_i hc
      simp only [Bool.and_eq_true, Bool.not_eq_true'] at hc
      exact ⟨Option.some.inj h2, hc.2⟩
    · cases h2
  obtain ⟨rfl, hq2⟩ := hq
  have hf := holds_absent PubKey.name _ l m hl k h1
  have hi : ∀ (x : PubKey), x.name = k → (l ++ [x]).findIdx? (fun c => c.name == k) = some l.length :=
    fun x hx => findIdx_new _ l x hf (by simp [hx])
  have hnew : HoldsPubs (l ++ [⟨k, q.1, some q.2⟩]) (upd m k (some q)) :=
    holds_append PubKey.name _ l m hl ⟨k, q.1, some q.2⟩ q h1 ⟨rfl, rfl⟩
  refine ⟨inl u0 (l ++ [⟨k, q.1, some q.2⟩]), ?_, l ++ [⟨k, q.1, some q.2⟩], rfl, hnew⟩
  rw [pubData, parse_set _ _ _ _ _ (inl u0 (l ++ [⟨k, 0, none⟩])) _ _ _ _ hs (Or.inl rfl)]
  · have e0 : Option.map Tree.val (List.head? [leaf .name k, leaf .publicKeyFormat q.1, leaf .publicKey q.2]) = some k := rfl
    rw [e0, parseList_cons _ _ _ _ _ _ _ (name_cb spki .create (Or.inl rfl) _ _ _),
      parseList_cons _ _ _ _ _ _ _ (key_format spki .create .absent (Or.inl rfl) k a b n c d rest u0 _ l.length q.1 (hi _ rfl) (by simp))]
    rw [modify_new, parseList_cons _ _ _ _ _ _ _ (key_data spki .create .absent (Or.inl rfl) k a b n c d rest u0 _ l.length q.2 hq2 (hi _ rfl) (by simp))]
    rw [modify_new, parseList_nil]
  · have e0 : Option.map Tree.val (List.head? [leaf .name k, leaf .publicKeyFormat q.1, leaf .publicKey q.2]) = some k := rfl
    rw [e0]
    simp only [userCb, List.head?_cons, Option.map_some, userPublicKey]
    simp only [show parentN (⟨.publicKey, some k⟩ :: keysPath a b n c d rest) 5 .clientAuthentication = true from rfl, if_true, ownKey, List.head?_cons, hu, inl_add]

theorem modify_id {α : Type} (l : List α) (i : Nat) : l.modify i (fun x => x) = l := by
  induction l generalizing i with
  | nil => simp
  | cons x t ih => cases i <;> simp [ih]

/-- The change of a key. -/
def chg (e : PubChange) (c : PubKey) : PubKey :=
  { c with type := e.fmt.getD c.type, data := match e.data with | some v => some v | none => c.data }

theorem key_step (spki : Nat → Bool) (a b : Option Nat) (n : Nat) (c d : Option Nat) (rest : List Anc)
    (u0 u : User) (m : Map (Nat × Nat)) (e : PubEdit) (m' : Map (Nat × Nat)) (hl : KeysInv u0 u m)
    (h : patch (sshKeyOk spki) (fun p c => sshKeyOk spki ((c : PubChange).fmt.getD p.1, c.data.getD p.2)) m e = some m') :
    ∃ u', parse (userCb spki) .none (keysPath a b n c d rest) u (pubTree e) = .ok u' ∧ KeysInv u0 u' m' := by
  obtain ⟨l, rfl, hl⟩ := hl
  cases e with
  | create k q => exact key_create spki .none .create rfl a b n c d rest u0 _ l rfl m m' hl k q h
  | delete k r =>
    obtain ⟨⟨y, hy⟩, rfl⟩ := patch_delete _ _ _ _ _ _ h
    obtain ⟨i, x, h1, h2, h3, h4, -⟩ := holds_get PubKey.name _ l m hl k y hy
    refine ⟨inl u0 (swapDel l i), ?_, _, rfl, holds_del PubKey.name _ l m hl k i x h2 h4⟩
    rw [pubTree, parse_del]
    simp only [userCb, List.head?_cons, Option.map_some, userPublicKey, leaf, Tree.val]
    simp only [show parentN (⟨.publicKey, some k⟩ :: keysPath a b n c d rest) 5 .clientAuthentication = true from rfl,
      getPubkey_ok _ u0 l k i (pubKeyKey_head _ _) h1, if_true, reduceCtorEq, if_false, inl_del u0 l i h3]
  | change k e =>
    obtain ⟨y, z, hy, hz, rfl⟩ := patch_change _ _ _ _ _ _ h
    obtain ⟨i, x, h1, h2, h3, h4, h5⟩ := holds_get PubKey.name _ l m hl k y hy
    have hz' : z = (e.fmt.getD y.1, e.data.getD y.2) ∧ spki (e.data.getD y.2) = false := by
      simp only [sshKeyOk] at hz
      split at hz
      · rename_i hc
        simp only [Bool.and_eq_true, Bool.not_eq_true'] at hc
        exact ⟨(Option.some.inj hz).symm, hc.2⟩
      · cases hz
    obtain ⟨rfl, hsp⟩ := hz'
    have hr : (chg e x).type = (e.fmt.getD y.1, e.data.getD y.2).1 ∧ (chg e x).data = some (e.fmt.getD y.1, e.data.getD y.2).2 := by
      obtain ⟨h6, h7⟩ := h5
      constructor
      · simp [chg, h6]
      · simp only [chg]; cases e.data <;> simp [h7]
    have hnew : HoldsPubs (l.modify i (chg e)) (upd m k (some (e.fmt.getD y.1, e.data.getD y.2))) :=
      holds_mod PubKey.name _ l m hl k i h1 x h2 (chg e) (fun _ => rfl) _ hr
    refine ⟨inl u0 (l.modify i (chg e)), ?_, _, rfl, hnew⟩
    · rw [pubTree, parse_none _ _ _ _ _ _ _ _ rfl]
      have e0 : Option.map Tree.val (List.head? (leaf .name k :: (replaced .publicKeyFormat e.fmt ++ replaced .publicKey e.data))) = some k := rfl
      rw [e0, parseList_cons _ _ _ _ _ _ _ (name_cb spki .none (Or.inr rfl) _ _ _)]
      have hmi : ∀ (f : PubKey → PubKey), (∀ x, (f x).name = x.name) → (l.modify i f).findIdx? (fun c => c.name == k) = some i := by
        intro f hf
        rw [← set_eq_modify' l i x f h2]
        exact findIdx_set PubKey.name l k i x (f x) h1 h2 (hf x)
      have hc0 : ∀ f v, e.fmt = f → e.data = v → chg e = fun c => { c with type := f.getD c.type, data := match v with | some v => some v | none => c.data } := by
        rintro f v rfl rfl; rfl
      cases hfm : e.fmt with
      | none =>
        cases hdt : e.data with
        | none =>
          have : chg e = fun x => x := (hc0 _ _ hfm hdt).trans rfl
          rw [this, modify_id]
          rfl
        | some v =>
          rw [hdt] at hsp
          rw [hc0 _ _ hfm hdt]
          simp only [replaced, List.nil_append, Option.getD_none]
          rw [parseList_cons _ _ _ _ _ _ _ (key_data spki .none .replace (Or.inr rfl) k a b n c d rest u0 _ i v hsp h1 h3), parseList_nil]
      | some f =>
        cases hdt : e.data with
        | none =>
          rw [hc0 _ _ hfm hdt]
          simp only [replaced, List.append_nil, Option.getD_some]
          rw [parseList_cons _ _ _ _ _ _ _ (key_format spki .none .replace (Or.inr rfl) k a b n c d rest u0 _ i f h1 h3), parseList_nil]
        | some v =>
          rw [hdt] at hsp
          rw [hc0 _ _ hfm hdt]
          simp only [replaced, List.cons_append, List.nil_append, Option.getD_some]
          rw [parseList_cons _ _ _ _ _ _ _ (key_format spki .none .replace (Or.inr rfl) k a b n c d rest u0 _ i f h1 h3),
            parseList_cons _ _ _ _ _ _ _ (key_data spki .none .replace (Or.inr rfl) k a b n c d rest u0 _ i v hsp
              (hmi (fun c => { c with type := f }) (fun _ => rfl)) (by rw [List.length_modify]; exact h3)), parseList_nil,
            List.modify_modify_eq]
          rfl

/-! ## One user -/

/-- A user with the keys of a bag. -/
def bagU (u : User) (n : Nat) : User := { u with store := .truststore, ptr := .str n, count := 0 }

/-- A user with the keys of the system. -/
def sysU (u : User) : User := { u with store := .system, ptr := .null, count := 0 }

/-- What is stored for the public keys. -/
def KeysRep (u0 u : User) : Option KeysConf → Prop
  | none => u = inl u0 []
  | some (.inline m) => KeysInv u0 u m
  | some (.bag n) => u = bagU u0 n
  | some .system => u = sysU u0

/-- The path of a user. -/
def uPath (n : Nat) (c d : Option Nat) (rest : List Anc) : List Anc :=
  ⟨.user, some n⟩ :: ⟨.users, c⟩ :: ⟨.clientAuthentication, d⟩ :: rest

theorem holdsPubs_nil : HoldsPubs [] (fun _ => none) := holds_nil _ _

theorem inline_create (spki : Nat → Bool) (p : Op) (mt : Meta) (hs : current mt p = .create) (n : Nat) (b c d : Option Nat) (rest : List Anc)
    (u0 u : User) (l : List (Nat × (Nat × Nat))) (hu : { u with store := .local } = inl u0 []) (hl : u.store = .local ∨ l ≠ []) (m : Map (Nat × Nat))
    (h : patchUserKeys spki (fun _ => none) (l.map (fun p => .create p.1 p.2)) = some m) :
    ∃ u', parse (userCb spki) p (⟨.publicKeys, b⟩ :: uPath n c d rest) u (inlineTree l mt) = .ok u' ∧ KeysInv u0 u' m := by
  rw [inlineTree, parse_set _ _ _ _ _ u _ _ _ _ hs (Or.inl rfl) (by rfl)]
  generalize Option.map Tree.val (List.head? (l.map (fun p => pubData p.1 p.2))) = a
  have hpath : (⟨.inlineDefinition, a⟩ :: ⟨.publicKeys, b⟩ :: uPath n c d rest : List Anc) = keysPath a b n c d rest := rfl
  rw [hpath]
  have key := creates_ok (userCb spki) (keysPath a b n c d rest) (sshKeyOk spki)
    (fun p c => sshKeyOk spki ((c : PubChange).fmt.getD p.1, c.data.getD p.2)) (fun k q => pubData k q) (KeysInv u0) (by
      intro s m k q m' ⟨l, e, hl⟩ hp
      exact key_create spki .create .absent rfl a b n c d rest u0 s l (by rw [e]; rfl) m m' hl k q hp)
  cases l with
  | nil =>
    rcases hl with hl | hl
    · have : u = inl u0 [] := by rw [← hu]; cases u; simp only at hl; subst hl; rfl
      exact key [] u _ m ⟨[], this, holdsPubs_nil⟩ h
    · exact absurd rfl hl
  | cons q l =>
    simp only [List.map_cons, patchUserKeys, patchAll] at h
    cases hp : patch (sshKeyOk spki) (fun p c => sshKeyOk spki ((c : PubChange).fmt.getD p.1, c.data.getD p.2)) (fun _ => none) (.create q.1 q.2) with
    | none => rw [hp] at h; cases h
    | some m1 =>
      rw [hp] at h
      obtain ⟨u1, h1, h2⟩ := key_create spki .create .absent rfl a b n c d rest u0 u [] hu _ m1 holdsPubs_nil q.1 q.2 hp
      obtain ⟨u2, h3, h4⟩ := key l u1 m1 m h2 h
      exact ⟨u2, by rw [List.map_cons, parseList_cons _ _ _ _ _ _ _ h1]; exact h3, h4⟩

theorem tsRef_set (spki : Nat → Bool) (p : Op) (mt : Meta) (hs : current mt p = .create ∨ current mt p = .replace) (b : Option Nat) (path : List Anc) (u : User) (v : Nat) :
    parse (userCb spki) p (⟨.publicKeys, b⟩ :: path) u (leaf .centralTruststoreReference v mt) = .ok { u with store := .truststore, ptr := .str v } := by
  have hset : setting (current mt p) = true := by rcases hs with h | h <;> rw [h] <;> rfl
  rw [leaf, parse_set _ _ _ _ _ { u with store := .truststore, ptr := .str v } _ _ _ _ rfl hs, parseList_nil]
  simp [userCb, userTsRef, parentN, hset]

theorem tsRef_del (spki : Nat → Bool) (p : Op) (b : Option Nat) (path : List Anc) (u : User) (v : Nat) :
    parse (userCb spki) p (⟨.publicKeys, b⟩ :: path) u (leaf .centralTruststoreReference v .delete) = .ok { u with ptr := .null } := by
  rw [leaf, parse_del]
  simp [userCb, userTsRef, parentN, setting]

theorem sys_set (spki : Nat → Bool) (p : Op) (mt : Meta) (hs : current mt p = .create) (path : List Anc) (u : User) (v : Nat) :
    parse (userCb spki) p path u (leaf .useSystemKeys v mt) = .ok { u with store := .system } := by
  rw [leaf, parse_set _ _ _ _ _ { u with store := .system } _ _ _ _ hs (Or.inl rfl), parseList_nil]
  simp [userCb, userSystemKeys]

theorem sys_del (spki : Nat → Bool) (p : Op) (path : List Anc) (u : User) (v : Nat) :
    parse (userCb spki) p path u (leaf .useSystemKeys v .delete) = .ok u := by
  rw [leaf, parse_del]
  simp [userCb, userSystemKeys]

theorem keys_create (spki : Nat → Bool) (p : Op) (mt : Meta) (hs : current mt p = .create) (n : Nat) (c d : Option Nat) (rest : List Anc)
    (u0 : User) (k : KeysData) (kc : KeysConf) (h : k.conf spki = some kc) :
    ∃ u', parse (userCb spki) p (uPath n c d rest) (inl u0 []) (.node .publicKeys 0 mt k.trees) = .ok u' ∧ KeysRep u0 u' (some kc) := by
  rw [parse_set _ _ _ _ _ (inl u0 []) _ _ _ _ hs (Or.inl rfl) (by simp [userCb, userPublicKeys])]
  generalize Option.map Tree.val (List.head? k.trees) = b
  cases k with
  | inline l =>
    simp only [KeysData.conf] at h
    cases hm : patchUserKeys spki (fun _ => none) (l.map (fun p => .create p.1 p.2)) with
    | none => rw [hm] at h; cases h
    | some m =>
      rw [hm] at h; simp only [Option.map_some, Option.some.injEq] at h; subst h
      obtain ⟨u', h1, h2⟩ := inline_create spki .create .absent rfl n b c d rest u0 (inl u0 []) l rfl (Or.inl rfl) m hm
      exact ⟨u', by rw [KeysData.trees, parseList_cons _ _ _ _ _ _ _ h1, parseList_nil], h2⟩
  | bag r =>
    simp only [KeysData.conf, Option.some.injEq] at h; subst h
    exact ⟨bagU u0 r, by rw [KeysData.trees, parseList_cons _ _ _ _ _ _ _ (tsRef_set spki .create .absent (Or.inl rfl) b _ _ _), parseList_nil]; rfl, rfl⟩
  | system =>
    simp only [KeysData.conf, Option.some.injEq] at h; subst h
    exact ⟨sysU u0, by rw [KeysData.trees, parseList_cons _ _ _ _ _ _ _ (sys_set spki .create .absent rfl _ _ _), parseList_nil]; rfl, rfl⟩

/-- Changes of the public keys that are not followed. -/
def keysLost (c : Option KeysConf) (e : KeysEdit) : Bool :=
  match e, c with
    | .delete _, some (.bag _) => true
    | .delete _, some .system => true
    | .switch (.inline _) _, _ => true
    | .switch (.bag _) (.inline _), _ => true
    | .switch .system (.inline []), _ => true
    | _, _ => false

theorem delKeys_inl (u0 : User) (l : List PubKey) : delKeys (inl u0 l) = .ok (inl u0 []) := by
  cases l with
  | nil => simp [delKeys, inl]
  | cons x t =>
    have : (inl u0 (x :: t)).keys? = some (x :: t) := inl_keys _ _
    simp only [delKeys, this]
    simp [inl, ptrOf]

theorem keys_edit (spki : Nat → Bool) (n : Nat) (c d : Option Nat) (rest : List Anc) (u0 u : User) (kc kc' : Option KeysConf) (e : KeysEdit)
    (hr : KeysRep u0 u kc) (h : e.apply spki kc = some kc') (hl : keysLost kc e = false) :
    ∃ u', parseList (userCb spki) .none (uPath n c d rest) u e.trees = .ok u' ∧ KeysRep u0 u' kc' := by
  cases e with
  | keep => simp only [KeysEdit.apply, Option.some.injEq] at h; subst h; exact ⟨u, rfl, hr⟩
  | create k =>
    cases kc with
    | some x => simp [KeysEdit.apply] at h
    | none =>
      simp only [KeysEdit.apply] at h
      cases hk : k.conf spki with
      | none => rw [hk] at h; cases h
      | some y =>
        rw [hk] at h; simp only [Option.map_some, Option.some.injEq] at h; subst h
        simp only [KeysRep] at hr; subst hr
        obtain ⟨u', h1, h2⟩ := keys_create spki .none .create rfl n c d rest u0 k y hk
        exact ⟨u', by rw [KeysEdit.trees, parseList_cons _ _ _ _ _ _ _ h1, parseList_nil], h2⟩
  | delete r =>
    cases kc with
    | none => simp [KeysEdit.apply] at h
    | some x =>
      simp only [KeysEdit.apply, Option.some.injEq] at h; subst h
      cases x with
      | bag => simp [keysLost] at hl
      | system => simp [keysLost] at hl
      | inline m =>
        obtain ⟨l, rfl, -⟩ := hr
        refine ⟨inl u0 [], ?_, rfl⟩
        have : parse (userCb spki) .none (uPath n c d rest) (inl u0 l) (.node .publicKeys 0 .delete r) = .ok (inl u0 []) := by
          rw [parse_del]; simp [userCb, userPublicKeys, delKeys_inl]
        rw [KeysEdit.trees, parseList_cons _ _ _ _ _ _ _ this, parseList_nil]
  | edit es =>
    cases kc with
    | none => simp [KeysEdit.apply] at h
    | some x =>
      cases x with
      | bag => simp [KeysEdit.apply] at h
      | system => simp [KeysEdit.apply] at h
      | inline m =>
        simp only [KeysEdit.apply] at h
        cases hm : patchUserKeys spki m es with
        | none => rw [hm] at h; cases h
        | some m' =>
          rw [hm] at h; simp only [Option.map_some, Option.some.injEq] at h; subst h
          have e1 : ∀ b a, ∃ u', parseList (userCb spki) .none (keysPath a b n c d rest) u (es.map pubTree) = .ok u' ∧ KeysInv u0 u' m' := by
            intro b a
            exact edits_ok (userCb spki) .none (keysPath a b n c d rest) (sshKeyOk spki) _ pubTree (KeysInv u0)
              (fun s m e m' hi hp => key_step spki a b n c d rest u0 s m e m' hi hp) es u m m' hr hm
          obtain ⟨u', h1, h2⟩ := e1 (some 0) (Option.map Tree.val (List.head? (es.map pubTree)))
          refine ⟨u', ?_, h2⟩
          have h3 : parse (userCb spki) .none (uPath n c d rest) u (.node .publicKeys 0 .none [.node .inlineDefinition 0 .none (es.map pubTree)]) = .ok u' := by
            rw [parse_none _ _ _ _ _ _ _ _ rfl]
            have h4 : parse (userCb spki) .none (⟨.publicKeys, some 0⟩ :: uPath n c d rest) u (.node .inlineDefinition 0 .none (es.map pubTree)) = .ok u' := by
              rw [parse_none _ _ _ _ _ _ _ _ rfl]; exact h1
            exact (parseList_cons _ _ _ _ _ _ _ h4).trans rfl
          rw [KeysEdit.trees, parseList_cons _ _ _ _ _ _ _ h3, parseList_nil]
  | reref r =>
    cases kc with
    | none => simp [KeysEdit.apply] at h
    | some x =>
      cases x with
      | inline => simp [KeysEdit.apply] at h
      | system => simp [KeysEdit.apply] at h
      | bag r0 =>
        simp only [KeysEdit.apply, Option.some.injEq] at h; subst h
        simp only [KeysRep] at hr; subst hr
        refine ⟨bagU u0 r, ?_, rfl⟩
        have h3 : parse (userCb spki) .none (uPath n c d rest) (bagU u0 r0) (.node .publicKeys 0 .none [leaf .centralTruststoreReference r .replace]) = .ok (bagU u0 r) := by
          rw [parse_none _ _ _ _ _ _ _ _ rfl, parseList_cons _ _ _ _ _ _ _ (tsRef_set spki .none .replace (Or.inr rfl) _ _ _ _), parseList_nil]; rfl
        rw [KeysEdit.trees, parseList_cons _ _ _ _ _ _ _ h3, parseList_nil]
  | switch o k =>
    cases kc with
    | none => simp [KeysEdit.apply] at h
    | some x =>
      simp only [KeysEdit.apply] at h
      split at h
      · rename_i hc
        simp only [Bool.and_eq_true] at hc
        cases hk : k.conf spki with
        | none => rw [hk] at h; cases h
        | some y =>
          rw [hk] at h; simp only [Option.map_some, Option.some.injEq] at h; subst h
          have wrap : ∀ u', (∀ b, parseList (userCb spki) .none (⟨.publicKeys, b⟩ :: uPath n c d rest) u (switchTrees o k) = .ok u') →
              parseList (userCb spki) .none (uPath n c d rest) u (KeysEdit.switch o k).trees = .ok u' := by
            intro u' hb
            have : parse (userCb spki) .none (uPath n c d rest) u (.node .publicKeys 0 .none (switchTrees o k)) = .ok u' := by
              rw [parse_none _ _ _ _ _ _ _ _ rfl]; exact hb _
            rw [KeysEdit.trees, parseList_cons _ _ _ _ _ _ _ this, parseList_nil]
          cases o with
          | inline => simp [keysLost] at hl
          | bag r =>
            cases x with
            | inline => simp [KeysOld.fits] at hc
            | system => simp [KeysOld.fits] at hc
            | bag r0 =>
              simp only [KeysRep] at hr; subst hr
              cases k with
              | inline => simp [keysLost] at hl
              | bag => simp [KeysOld.differs] at hc
              | system =>
                simp only [KeysData.conf, Option.some.injEq] at hk; subst hk
                refine ⟨sysU u0, wrap _ (fun b => ?_), rfl⟩
                rw [switchTrees, parseList_cons _ _ _ _ _ _ _ (tsRef_del spki .none b _ _ _),
                  parseList_cons _ _ _ _ _ _ _ (sys_set spki .none .create rfl _ _ _), parseList_nil]
                rfl
          | system =>
            cases x with
            | inline => simp [KeysOld.fits] at hc
            | bag => simp [KeysOld.fits] at hc
            | system =>
              simp only [KeysRep] at hr; subst hr
              cases k with
              | system => simp [KeysOld.differs] at hc
              | bag r =>
                simp only [KeysData.conf, Option.some.injEq] at hk; subst hk
                refine ⟨bagU u0 r, wrap _ (fun b => ?_), rfl⟩
                rw [switchTrees, parseList_cons _ _ _ _ _ _ _ (tsRef_set spki .none .create (Or.inl rfl) b _ _ _),
                  parseList_cons _ _ _ _ _ _ _ (sys_del spki .none _ _ _), parseList_nil]
                rfl
              | inline l =>
                simp only [KeysData.conf] at hk
                cases hm : patchUserKeys spki (fun _ => none) (l.map (fun p => .create p.1 p.2)) with
                | none => rw [hm] at hk; cases hk
                | some m =>
                  rw [hm] at hk; simp only [Option.map_some, Option.some.injEq] at hk; subst hk
                  have hne : l ≠ [] := by rintro rfl; simp [keysLost] at hl
                  have e1 : ∀ b, ∃ u', parse (userCb spki) .none (⟨.publicKeys, b⟩ :: uPath n c d rest) (sysU u0) (inlineTree l .create) = .ok u' ∧ KeysInv u0 u' m :=
                    fun b => inline_create spki .none .create rfl n b c d rest u0 (sysU u0) l rfl (Or.inr hne) m hm
                  obtain ⟨u', h1, h2⟩ := e1 (some 0)
                  refine ⟨u', ?_, h2⟩
                  have : parse (userCb spki) .none (uPath n c d rest) (sysU u0) (.node .publicKeys 0 .none (switchTrees .system (.inline l))) = .ok u' := by
                    rw [parse_none _ _ _ _ _ _ _ _ rfl, switchTrees]
                    refine (parseList_cons _ _ _ _ _ _ _ h1).trans ?_
                    rw [parseList_cons _ _ _ _ _ _ _ (sys_del spki .none _ _ _), parseList_nil]
                  rw [KeysEdit.trees, parseList_cons _ _ _ _ _ _ _ this, parseList_nil]
      · cases h

/-! ## Nodes visited -/

theorem patchAll_mem {ι ε α : Type} (mk : ι → Option α) (ch : α → ε → Option α) (es : List (Edit ι ε)) : ∀ (m m' : Map α),
    patchAll mk ch m es = some m' → ∀ e ∈ es, ∃ m1 m2, patch mk ch m1 e = some m2 := by
  induction es with
  | nil => intro m m' _ e he; cases he
  | cons e0 es ih =>
    intro m m' h e he
    simp only [patchAll] at h
    cases hp : patch mk ch m e0 with
    | none => rw [hp] at h; cases h
    | some m1 =>
      rw [hp] at h
      rcases List.mem_cons.mp he with rfl | he
      · exact ⟨m, m1, hp⟩
      · exact ih m1 m' h e he

theorem sshKeyOk_fmt (spki : Nat → Bool) (p q : Nat × Nat) (h : sshKeyOk spki p = some q) : pubSupported p.1 = true := by
  simp only [sshKeyOk] at h
  split at h
  · rename_i hc
    simp only [Bool.and_eq_true] at hc
    exact hc.1
  · cases h

theorem visits_pubData (k : Nat) (q : Nat × Nat) (mt : Meta) (h : pubSupported q.1 = true) : visits inUser (pubData k q mt) = true := by
  simp [pubData, visits, visitsL, leaf, inUser, notUser, h]

theorem visits_pubTree (spki : Nat → Bool) (m m' : Map (Nat × Nat)) (e : PubEdit)
    (h : patch (sshKeyOk spki) (fun p c => sshKeyOk spki ((c : PubChange).fmt.getD p.1, c.data.getD p.2)) m e = some m') :
    visits inUser (pubTree e) = true := by
  cases e with
  | create k q =>
    obtain ⟨-, y, h2, -⟩ := patch_create _ _ _ _ _ _ h
    exact visits_pubData k q _ (sshKeyOk_fmt spki _ _ h2)
  | delete k r => simp [pubTree, visits, inUser, notUser]
  | change k e =>
    obtain ⟨y, z, hy, hz, -⟩ := patch_change _ _ _ _ _ _ h
    have := sshKeyOk_fmt spki _ _ hz
    cases hf : e.fmt with
    | none => cases hd : e.data <;> simp [pubTree, visits, visitsL, leaf, inUser, notUser, replaced, hf, hd]
    | some f =>
      rw [hf] at this
      simp only [Option.getD_some] at this
      cases hd : e.data <;> simp [pubTree, visits, visitsL, leaf, inUser, notUser, replaced, hf, hd, this]

theorem visits_inline (spki : Nat → Bool) (l : List (Nat × (Nat × Nat))) (mt : Meta) (m m' : Map (Nat × Nat))
    (h : patchUserKeys spki m (l.map (fun p => .create p.1 p.2)) = some m') : visits inUser (inlineTree l mt) = true := by
  have h1 : visitsL inUser (l.map (fun p => pubData p.1 p.2)) = true := by
    apply visitsL_map
    intro x hx
    obtain ⟨m1, m2, hp⟩ := patchAll_mem _ _ _ _ _ h (.create x.1 x.2) (List.mem_map.mpr ⟨x, hx, rfl⟩)
    obtain ⟨-, y, h2, -⟩ := patch_create _ _ _ _ _ _ hp
    exact visits_pubData _ _ _ (sshKeyOk_fmt spki _ _ h2)
  simp [inlineTree, visits, inUser, notUser, h1]

theorem visits_data (spki : Nat → Bool) (k : KeysData) (kc : KeysConf) (h : k.conf spki = some kc) (mt : Meta) :
    visits inUser (.node .publicKeys 0 mt k.trees) = true := by
  cases k with
  | inline l =>
    simp only [KeysData.conf] at h
    cases hm : patchUserKeys spki (fun _ => none) (l.map (fun p => .create p.1 p.2)) with
    | none => rw [hm] at h; cases h
    | some m =>
      have := visits_inline spki l .absent _ _ hm
      simp [KeysData.trees, visits, visitsL, inUser, notUser]
      right; simpa [inUser] using this
  | bag r => simp [KeysData.trees, visits, visitsL, inUser, notUser, leaf]
  | system => simp [KeysData.trees, visits, visitsL, inUser, notUser, leaf]

theorem visits_edit (spki : Nat → Bool) (kc kc' : Option KeysConf) (e : KeysEdit) (h : e.apply spki kc = some kc') :
    visitsL inUser e.trees = true := by
  cases e with
  | keep => rfl
  | create k =>
    cases kc with
    | some x => simp [KeysEdit.apply] at h
    | none =>
      simp only [KeysEdit.apply] at h
      cases hk : k.conf spki with
      | none => rw [hk] at h; cases h
      | some y => simp [KeysEdit.trees, visitsL, visits_data spki k y hk]
  | delete r => simp [KeysEdit.trees, visitsL, visits, inUser, notUser]
  | edit es =>
    cases kc with
    | none => simp [KeysEdit.apply] at h
    | some x =>
      cases x with
      | bag => simp [KeysEdit.apply] at h
      | system => simp [KeysEdit.apply] at h
      | inline m =>
        simp only [KeysEdit.apply] at h
        cases hm : patchUserKeys spki m es with
        | none => rw [hm] at h; cases h
        | some m' =>
          have h1 : visitsL inUser (es.map pubTree) = true := by
            apply visitsL_map
            intro x hx
            obtain ⟨m1, m2, hp⟩ := patchAll_mem _ _ _ _ _ hm x hx
            exact visits_pubTree spki m1 m2 x hp
          simp [KeysEdit.trees, visitsL, visits, inUser, notUser] 
          simpa [inUser] using h1
  | reref r => simp [KeysEdit.trees, visitsL, visits, inUser, notUser, leaf]
  | switch o k =>
    cases kc with
    | none => simp [KeysEdit.apply] at h
    | some x =>
      simp only [KeysEdit.apply] at h
      split at h
      · have h2 : ∀ l, k = .inline l → visits inUser (inlineTree l .create) = true := by
          rintro l rfl
          simp only [KeysData.conf] at h
          cases hm : patchUserKeys spki (fun _ => none) (l.map (fun p => .create p.1 p.2)) with
          | none => rw [hm] at h; cases h
          | some m => exact visits_inline spki l .create _ _ hm
        have hi : ∀ l v, (!notUser l && (l != .publicKeyFormat || pubSupported v)) = inUser l v := fun _ _ => rfl
        cases o <;> cases k <;> simp [KeysEdit.trees, switchTrees, visitsL, visits, inUser, notUser, leaf] <;> (simpa [inUser] using h2 _ rfl)
      · cases h

/-! ## Whole users -/

/-- What is stored for a user. -/
def UserRep (u : User) (c : UserConf) : Prop := KeysRep u u c.keys ∧ u.password = c.password ∧ u.noneOk = c.noneOk ∧ u.kbdint = c.kbdint

theorem keysRep_self (u0 u : User) (kc : Option KeysConf) (h : KeysRep u0 u kc) : KeysRep u u kc ∧ u.password = u0.password ∧ u.noneOk = u0.noneOk ∧ u.kbdint = u0.kbdint := by
  cases kc with
  | none => simp only [KeysRep] at h ⊢; subst h; exact ⟨rfl, rfl, rfl, rfl⟩
  | some x =>
    cases x with
    | inline m => obtain ⟨l, rfl, hl⟩ := h; exact ⟨⟨l, rfl, hl⟩, rfl, rfl, rfl⟩
    | bag r => simp only [KeysRep] at h ⊢; subst h; exact ⟨rfl, rfl, rfl, rfl⟩
    | system => simp only [KeysRep] at h ⊢; subst h; exact ⟨rfl, rfl, rfl, rfl⟩

theorem keysRep_other (u : User) (kc : Option KeysConf) (h : KeysRep u u kc) (p : Option Nat) (b b' : Bool) :
    KeysRep { u with password := p, kbdint := b, noneOk := b' } { u with password := p, kbdint := b, noneOk := b' } kc := by
  have hx : ∀ (u v : User), u = v → ({ u with password := p, kbdint := b, noneOk := b' } : User) = { v with password := p, kbdint := b, noneOk := b' } := by
    rintro u _ rfl; rfl
  cases kc with
  | none => simp only [KeysRep] at h ⊢; exact (hx _ _ h).trans rfl
  | some x =>
    cases x with
    | inline m => obtain ⟨l, h, hl⟩ := h; exact ⟨l, (hx _ _ h).trans rfl, hl⟩
    | bag r => simp only [KeysRep] at h ⊢; exact (hx _ _ h).trans rfl
    | system => simp only [KeysRep] at h ⊢; exact (hx _ _ h).trans rfl

theorem password_set (spki : Nat → Bool) (p : Op) (mt : Meta) (hs : current mt p = .create ∨ current mt p = .replace) (path : List Anc) (u : User) (v : Nat) :
    parse (userCb spki) p path u (leaf .password v mt) = .ok { u with password := some v } := by
  have hset : setting (current mt p) = true := by rcases hs with h | h <;> rw [h] <;> rfl
  rw [leaf, parse_set _ _ _ _ _ { u with password := some v } _ _ _ _ rfl hs, parseList_nil]
  simp [userCb, userPassword, hset]

theorem password_edit (spki : Nat → Bool) (path : List Anc) (u : User) (e : LeafEdit) (p' : Option Nat) (h : e.apply u.password = some p') :
    parseList (userCb spki) .none path u (leafTree .password e) = .ok { u with password := p' } := by
  cases e with
  | keep => simp only [LeafEdit.apply, Option.some.injEq] at h; subst h; rfl
  | create v =>
    have : p' = some v := by cases hp : u.password <;> rw [hp] at h <;> simp [LeafEdit.apply] at h; exact h.symm
    subst this
    rw [leafTree, parseList_cons _ _ _ _ _ _ _ (password_set spki .none .create (Or.inl rfl) _ _ _), parseList_nil]
  | replace v =>
    have : p' = some v := by cases hp : u.password <;> rw [hp] at h <;> simp [LeafEdit.apply] at h; exact h.symm
    subst this
    rw [leafTree, parseList_cons _ _ _ _ _ _ _ (password_set spki .none .replace (Or.inr rfl) _ _ _), parseList_nil]
  | delete v =>
    have : p' = none := by
      cases hp : u.password with
      | none => rw [hp] at h; simp [LeafEdit.apply] at h
      | some w => rw [hp] at h; simp only [LeafEdit.apply] at h; split at h <;> simp at h; exact h.symm
    subst this
    have : parse (userCb spki) .none path u (leaf .password v .delete) = .ok { u with password := none } := by
      rw [leaf, parse_del]; simp [userCb, userPassword, setting]
    rw [leafTree, parseList_cons _ _ _ _ _ _ _ this, parseList_nil]

theorem none_set (spki : Nat → Bool) (p : Op) (mt : Meta) (hs : current mt p = .create) (path : List Anc) (u : User) :
    parse (userCb spki) p path u (leaf .noneMethod 0 mt) = .ok { u with noneOk := true } := by
  rw [leaf, parse_set _ _ _ _ _ { u with noneOk := true } _ _ _ _ hs (Or.inl rfl), parseList_nil]
  simp [userCb, userNone]

theorem none_edit (spki : Nat → Bool) (path : List Anc) (u : User) (e : Flag) (p' : Bool) (h : e.apply u.noneOk = some p') :
    parseList (userCb spki) .none path u (noneTrees e) = .ok { u with noneOk := p' } := by
  cases e with
  | keep => simp only [Flag.apply, Option.some.injEq] at h; subst h; rfl
  | on =>
    have : p' = true := by cases hp : u.noneOk <;> rw [hp] at h <;> simp [Flag.apply] at h; exact h
    subst this
    rw [noneTrees, parseList_cons _ _ _ _ _ _ _ (none_set spki .none .create rfl _ _), parseList_nil]
  | off =>
    have : p' = false := by cases hp : u.noneOk <;> rw [hp] at h <;> simp [Flag.apply] at h; exact h
    subst this
    have : parse (userCb spki) .none path u (leaf .noneMethod 0 .delete) = .ok { u with noneOk := false } := by
      rw [leaf, parse_del]; simp [userCb, userNone]
    rw [noneTrees, parseList_cons _ _ _ _ _ _ _ this, parseList_nil]

theorem kbd_set (spki : Nat → Bool) (p : Op) (mt : Meta) (hs : current mt p = .create) (path : List Anc) (u : User) :
    parse (userCb spki) p path u (kbdTree mt) = .ok { u with kbdint := true } := by
  rw [kbdTree, parse_set _ _ _ _ _ u _ _ _ _ hs (Or.inl rfl) (by rfl)]
  have : ∀ path, parse (userCb spki) .create path u (leaf .useSystemAuth 0) = .ok { u with kbdint := true } := by
    intro path
    rw [leaf, parse_set _ _ _ _ _ { u with kbdint := true } _ _ _ _ rfl (Or.inl rfl), parseList_nil]
    simp [userCb, userKbdint, current, ownOp]
  rw [parseList_cons _ _ _ _ _ _ _ (this _), parseList_nil]

theorem kbd_edit (spki : Nat → Bool) (path : List Anc) (u : User) (e : Flag) (p' : Bool) (h : e.apply u.kbdint = some p') (ho : e ≠ .off) :
    parseList (userCb spki) .none path u (kbdTrees e) = .ok { u with kbdint := p' } := by
  cases e with
  | keep => simp only [Flag.apply, Option.some.injEq] at h; subst h; rfl
  | on =>
    have : p' = true := by cases hp : u.kbdint <;> rw [hp] at h <;> simp [Flag.apply] at h; exact h
    subst this
    rw [kbdTrees, parseList_cons _ _ _ _ _ _ _ (kbd_set spki .none .create rfl _ _), parseList_nil]
  | off => exact absurd rfl ho

theorem user_change (spki : Nat → Bool) (n : Nat) (c d : Option Nat) (rest : List Anc) (u : User) (uc uc' : UserConf) (e : UserChange)
    (hr : UserRep u uc) (h : uc.change spki e = some uc') (hl : uc.lost e = false) :
    (∃ u', parseList (userCb spki) .none (uPath n c d rest) u (e.keys.trees ++ (leafTree .password e.password ++ (noneTrees e.noneOk ++ kbdTrees e.kbdint))) = .ok u' ∧
      UserRep u' uc') ∧ visitsL inUser (e.keys.trees ++ (leafTree .password e.password ++ (noneTrees e.noneOk ++ kbdTrees e.kbdint))) = true := by
  obtain ⟨hk, hp, hn, hb⟩ := hr
  simp only [UserConf.change] at h
  split at h
  · rename_i k p no b e1 e2 e3 e4
    simp only [Option.some.injEq] at h; subst h
    simp only [UserConf.lost, Bool.or_eq_false_iff, beq_eq_false_iff_ne, ne_eq] at hl
    have hl2 : keysLost uc.keys e.keys = false := hl.2
    obtain ⟨u1, f1, f2⟩ := keys_edit spki n c d rest u u uc.keys k e.keys hk e1 hl2
    obtain ⟨g1, g2, g3, g4⟩ := keysRep_self u u1 k f2
    refine ⟨⟨{ u1 with password := p, noneOk := no, kbdint := b }, ?_, ?_⟩, ?_⟩
    · rw [parseList_append _ _ _ _ _ _ _ f1,
        parseList_append _ _ _ _ _ _ _ (password_edit spki _ u1 e.password p (by rw [g2, hp]; exact e2)),
        parseList_append _ _ _ _ _ _ _ (none_edit spki _ { u1 with password := p } e.noneOk no (by simp only [g3, hn]; exact e3)),
        kbd_edit spki _ { u1 with password := p, noneOk := no } e.kbdint b (by simp only [g4, hb]; exact e4) hl.1]
    · exact ⟨keysRep_other u1 k g1 p b no, rfl, rfl, rfl⟩
    · simp only [visitsL_append, Bool.and_eq_true]
      refine ⟨visits_edit spki _ _ e.keys e1, ?_, ?_, ?_⟩
      · cases e.password <;> simp [leafTree, visitsL, visits, leaf, inUser, notUser]
      · cases e.noneOk <;> simp [noneTrees, visitsL, visits, leaf, inUser, notUser]
      · cases e.kbdint <;> simp [kbdTrees, kbdTree, visitsL, visits, leaf, inUser, notUser]
  · cases h

theorem user_create (spki : Nat → Bool) (n : Nat) (c d : Option Nat) (rest : List Anc) (k : Nat) (x : UserData) (uc : UserConf) (h : x.conf spki = some uc) :
    (∃ u', parseList (userCb spki) .create (uPath n c d rest) (newUser k)
      ((match x.keys with
        | none => []
        | some k => [.node .publicKeys 0 .absent k.trees]) ++ (optLeaf .password x.password ++
       ((if x.noneOk then [leaf .noneMethod 0] else []) ++ (if x.kbdint then [kbdTree] else [])))) = .ok u' ∧ UserRep u' uc) ∧
    visitsL inUser ((match x.keys with
        | none => []
        | some k => [.node .publicKeys 0 .absent k.trees]) ++ (optLeaf .password x.password ++
       ((if x.noneOk then [leaf .noneMethod 0] else []) ++ (if x.kbdint then [kbdTree] else [])))) = true := by
  obtain ⟨kc, hkc, huc⟩ : ∃ kc, (∀ y, x.keys = some y → ∃ z, y.conf spki = some z ∧ kc = some z) ∧ uc = ⟨kc, x.password, x.noneOk, x.kbdint⟩ ∧ (x.keys = none → kc = none) := by
    simp only [UserData.conf] at h
    cases hk : x.keys with
    | none => rw [hk] at h; simp only [Option.some.injEq] at h; exact ⟨none, by simp, h.symm, fun _ => rfl⟩
    | some y =>
      rw [hk] at h; simp only at h
      cases hy : y.conf spki with
      | none => rw [hy] at h; cases h
      | some z =>
        rw [hy] at h; simp only [Option.map_some, Option.some.injEq] at h
        exact ⟨some z, by rintro _ ⟨⟩; exact ⟨z, hy, rfl⟩, h.symm, by simp⟩
  obtain ⟨huc, hn⟩ := huc
  subst huc
  have e1 : ∃ u1, parseList (userCb spki) .create (uPath n c d rest) (newUser k) (match x.keys with
        | none => []
        | some k => [.node .publicKeys 0 .absent k.trees]) = .ok u1 ∧ KeysRep (newUser k) u1 kc := by
    cases hk : x.keys with
    | none => rw [hn hk]; exact ⟨newUser k, rfl, rfl⟩
    | some y =>
      obtain ⟨z, h1, rfl⟩ := hkc y hk
      obtain ⟨u1, h2, h3⟩ := keys_create spki .create .absent rfl n c d rest (newUser k) y z h1
      exact ⟨u1, by
        have : (newUser k) = inl (newUser k) [] := rfl
        rw [this]
        exact (parseList_cons _ _ _ _ _ _ _ h2).trans rfl, h3⟩
  obtain ⟨u1, f1, f2⟩ := e1
  obtain ⟨g1, g2, g3, g4⟩ := keysRep_self _ u1 kc f2
  refine ⟨⟨{ u1 with password := x.password, noneOk := x.noneOk, kbdint := x.kbdint }, ?_, keysRep_other u1 kc g1 _ _ _, rfl, rfl, rfl⟩, ?_⟩
  · have hpw : ∀ path, parseList (userCb spki) .create path u1 (optLeaf .password x.password) = .ok { u1 with password := x.password } := by
      intro path
      cases hp : x.password with
      | none => rw [show ({ u1 with password := none } : User) = u1 by rw [show none = u1.password from g2.symm]]; rfl
      | some v => rw [optLeaf, parseList_cons _ _ _ _ _ _ _ (password_set spki .create .absent (Or.inl rfl) _ _ _), parseList_nil]
    have hno : ∀ path (u : User), u.noneOk = false → parseList (userCb spki) .create path u (if x.noneOk then [leaf .noneMethod 0] else []) = .ok { u with noneOk := x.noneOk } := by
      intro path u hu
      cases hx : x.noneOk with
      | false => rw [show ({ u with noneOk := false } : User) = u by rw [show false = u.noneOk from hu.symm]]; rfl
      | true =>
        rw [if_pos rfl, parseList_cons _ _ _ _ _ _ _ (none_set spki .create .absent rfl _ _), parseList_nil]
    have hkb : ∀ path (u : User), u.kbdint = false → parseList (userCb spki) .create path u (if x.kbdint then [kbdTree] else []) = .ok { u with kbdint := x.kbdint } := by
      intro path u hu
      cases hx : x.kbdint with
      | false => rw [show ({ u with kbdint := false } : User) = u by rw [show false = u.kbdint from hu.symm]]; rfl
      | true =>
        rw [if_pos rfl, parseList_cons _ _ _ _ _ _ _ (kbd_set spki .create .absent rfl _ _), parseList_nil]
    rw [parseList_append _ _ _ _ _ _ _ f1, parseList_append _ _ _ _ _ _ _ (hpw _), parseList_append _ _ _ _ _ _ _ (hno _ _ (by exact g3)), hkb _ _ (by exact g4)]
  · simp only [visitsL_append, Bool.and_eq_true]
    refine ⟨?_, ?_, ?_, ?_⟩
    · cases hk : x.keys with
      | none => rfl
      | some y =>
        obtain ⟨z, h1, -⟩ := hkc y hk
        simp [visitsL, visits_data spki y z h1]
    · cases x.password <;> simp [optLeaf, visitsL, visits, leaf, inUser, notUser]
    · cases x.noneOk <;> simp [visitsL, visits, leaf, inUser, notUser]
    · cases x.kbdint <;> simp [kbdTree, visitsL, visits, leaf, inUser, notUser]

/-! ## Users of the endpoint -/

theorem name_ssh (spki : Nat → Bool) (p : Op) (hp : p = .create ∨ p = .none) (path : List Anc) (s : Ssh) (n : Nat) :
    parse (sshCb spki) p path s (leaf .name n) = .ok s := by
  rcases hp with rfl | rfl <;> simp [leaf, parse, current, ownOp, sshCb, parseList]

/-- The path of the SSH parameters. -/
def sPath (x : Option Nat) : List Anc := [⟨.sshServerParameters, x⟩]

theorem uPath_good (n : Nat) (c d x : Option Nat) : cleanPath (uPath n c d (sPath x)) ∧ keyOr (uPath n c d (sPath x)) .user = some n := by
  constructor
  · intro a ha
    simp only [uPath, sPath, List.mem_cons, List.not_mem_nil, or_false] at ha
    rcases ha with rfl | rfl | rfl | rfl <;> simp
  · simp [uPath, keyOr, keyOf_head]

theorem user_name (spki : Nat → Bool) (s : Ssh) (n i : Nat) (u : User) (hi : s.users.findIdx? (fun u => u.name == n) = some i)
    (hu : s.users[i]? = some u) (p : Op) (path : List Anc) (hg : cleanPath path ∧ keyOr path .user = some n) (ts : List Tree) (u' : User)
    (hv : visitsL inUser ts = true) (h : parseList (userCb spki) p path u ts = .ok u') :
    parseList (sshCb spki) p path s ts = .ok { s with users := s.users.set i u' } ∧ u'.name = u.name := by
  have := focusL (userFocus spki s n i u hi hu) ts p path u u' hg rfl hv h
  simp only [set_self _ _ _ hu] at this
  exact this

theorem delKeys_ok (u : User) (kc : Option KeysConf) (h : KeysRep u u kc) : ∃ u', delKeys u = .ok u' := by
  cases kc with
  | none =>
    simp only [KeysRep] at h; rw [h]
    exact ⟨_, delKeys_inl u []⟩
  | some x =>
    cases x with
    | inline m => obtain ⟨l, h, -⟩ := h; rw [h]; exact ⟨_, delKeys_inl u l⟩
    | bag r => simp only [KeysRep] at h; rw [h]; exact ⟨_, rfl⟩
    | system => simp only [KeysRep] at h; rw [h]; exact ⟨_, rfl⟩

/-- The users of the endpoint. -/
def UsersInv (hs : List HostKey) (s : Ssh) (m : Map UserConf) : Prop := s.hostKeys = hs ∧ Holds User.name UserRep s.users m

theorem user_create_step (spki : Nat → Bool) (hs : List HostKey) (c d x : Option Nat) (p : Op) (mt : Meta) (hm : current mt p = .create)
    (s : Ssh) (m : Map UserConf) (hi : UsersInv hs s m) (k : Nat) (q : UserData) (uc : UserConf) (hk : m k = none) (hq : q.conf spki = some uc) :
    ∃ s', parse (sshCb spki) p (⟨.users, c⟩ :: ⟨.clientAuthentication, d⟩ :: sPath x) s (userData k q mt) = .ok s' ∧ UsersInv hs s' (upd m k (some uc)) := by
  obtain ⟨⟨u', h1, h2⟩, h3⟩ := user_create spki k c d (sPath x) k q uc hq
  have hfi : (s.users ++ [newUser k]).findIdx? (fun u => u.name == k) = some s.users.length := findIdx_new _ s.users (newUser k) (holds_absent User.name _ _ _ hi.2 k hk) (by simp [newUser])
  obtain ⟨f1, f2⟩ := user_name spki { s with users := s.users ++ [newUser k] } k s.users.length (newUser k) hfi (by simp) .create _ (uPath_good k c d x) _ u' h3 h1
  have hset : (s.users ++ [newUser k]).set s.users.length u' = s.users ++ [u'] := by
    rw [List.set_append_right _ _ (Nat.le_refl _)]; simp
  refine ⟨{ s with users := s.users ++ [u'] }, ?_, hi.1, ?_⟩
  · rw [userData, parse_set _ _ _ _ _ { s with users := s.users ++ [newUser k] } _ _ _ _ hm (Or.inl rfl) (by rfl)]
    rw [parseList_cons _ _ _ _ _ _ _ (name_ssh spki .create (Or.inl rfl) _ _ _)]
    refine Eq.trans ?_ (f1.trans ?_)
    · rfl
    · simp only [hset]
  · have := holds_append User.name UserRep s.users m hi.2 u' uc (by rw [f2]; exact hk) h2
    rw [f2] at this; exact this

theorem user_step (spki : Nat → Bool) (hs : List HostKey) (c d x : Option Nat)
    (s : Ssh) (m : Map UserConf) (e : UserEdit) (m' : Map UserConf) (hi : UsersInv hs s m)
    (h : patch (UserData.conf spki) (fun c e => if UserConf.lost c e then none else UserConf.change spki c e) m e = some m') :
    ∃ s', parse (sshCb spki) .none (⟨.users, c⟩ :: ⟨.clientAuthentication, d⟩ :: sPath x) s (userTree e) = .ok s' ∧ UsersInv hs s' m' := by
  cases e with
  | create k q =>
    obtain ⟨h1, y, h2, rfl⟩ := patch_create _ _ _ _ _ _ h
    exact user_create_step spki hs c d x .none .create rfl s m hi k q y h1 h2
  | delete k r =>
    obtain ⟨⟨y, hy⟩, rfl⟩ := patch_delete _ _ _ _ _ _ h
    obtain ⟨i, u, h1, h2, h3, h4, h5⟩ := holds_get User.name _ _ _ hi.2 k y hy
    obtain ⟨v, hv⟩ := delKeys_ok u y.keys h5.1
    refine ⟨{ s with users := swapDel s.users i }, ?_, hi.1, holds_del User.name _ _ _ hi.2 k i u h2 h4⟩
    rw [userTree, parse_del]
    have e0 : Option.map Tree.val (List.head? (leaf .name k :: r)) = some k := rfl
    rw [e0]
    have hk : keyOr (⟨.user, some k⟩ :: ⟨.users, c⟩ :: ⟨.clientAuthentication, d⟩ :: sPath x) .user = some k := (uPath_good k c d x).2
    simp only [sshCb, List.head?_cons, Option.map_some, cfgUser, reduceCtorEq, if_false, if_true, hk, Option.bind_some, h1, h2, hv]
  | change k e =>
    obtain ⟨y, z, hy, hz, rfl⟩ := patch_change _ _ _ _ _ _ h
    have hl : UserConf.lost y e = false := by
      cases hl : UserConf.lost y e with
      | false => rfl
      | true => rw [hl] at hz; simp at hz
    rw [hl] at hz
    simp only [Bool.false_eq_true, if_false] at hz
    obtain ⟨i, u, h1, h2, h3, h4, h5⟩ := holds_get User.name _ _ _ hi.2 k y hy
    obtain ⟨⟨u', g1, g2⟩, g3⟩ := user_change spki k c d (sPath x) u y z e h5 hz hl
    obtain ⟨f1, f2⟩ := user_name spki s k i u h1 h2 .none _ (uPath_good k c d x) _ u' g3 g1
    refine ⟨{ s with users := s.users.set i u' }, ?_, hi.1, holds_set User.name _ _ _ hi.2 k i u u' h1 h2 f2 z g2⟩
    rw [userTree, parse_none _ _ _ _ _ _ _ _ rfl, parseList_cons _ _ _ _ _ _ _ (name_ssh spki .none (Or.inr rfl) _ _ _)]
    exact f1

/-! ## Host keys of the endpoint -/

/-- What is stored for a host key. -/
def HostRep (spki : Nat → Bool) (h : HostKey) (c : HostConf) : Prop :=
  c.valid spki = true ∧
  match c with
  | .inline _ _ pf pd => h.store = .local ∧ h.privType = pf ∧ h.privData = some pd
  | .ref n => h.store = .keystore ∧ h.ksRef = some n

/-- The path of the inner nodes of a host key. -/
def hPath (n : Nat) (a b c x : Option Nat) : List Anc :=
  ⟨.inlineDefinition, a⟩ :: ⟨.publicKey, b⟩ :: ⟨.hostKey, some n⟩ :: ⟨.serverIdentity, c⟩ :: sPath x

theorem hname_cb (spki : Nat → Bool) (p : Op) (hp : p = .create ∨ p = .none) (path : List Anc) (u : HostKey) (n : Nat) :
    parse (hostCb spki) p path u (leaf .name n) = .ok u := by
  rcases hp with rfl | rfl <;> simp [leaf, parse, current, ownOp, hostCb, parseList]

theorem h_fmt (spki : Nat → Bool) (p : Op) (mt : Meta) (hs : current mt p = .create ∨ current mt p = .replace) (n : Nat) (a b c x : Option Nat) (h : HostKey) (v : Nat) :
    parse (hostCb spki) p (hPath n a b c x) h (leaf .publicKeyFormat v mt) = .ok { h with pubType := v } := by
  have hset : setting (current mt p) = true := by rcases hs with h | h <;> rw [h] <;> rfl
  rw [leaf, parse_set _ _ _ _ _ { h with pubType := v } _ _ _ _ rfl hs, parseList_nil]
  simp only [hostCb, List.head?_cons, Option.map_some, hostPubFormat, show parentN (⟨.publicKeyFormat, Option.map Tree.val (List.head? [])⟩ :: hPath n a b c x) 4 .serverIdentity = true from rfl, hset, if_true]

theorem h_fmt_del (spki : Nat → Bool) (n : Nat) (a b c x : Option Nat) (h : HostKey) (v : Nat) :
    parse (hostCb spki) .none (hPath n a b c x) h (leaf .publicKeyFormat v .delete) = .ok h := by
  rw [leaf, parse_del]
  simp [hostCb, hostPubFormat, setting]

theorem h_pub (spki : Nat → Bool) (p : Op) (mt : Meta) (hs : current mt p = .create ∨ current mt p = .replace) (n : Nat) (a b c x : Option Nat) (h : HostKey) (v : Nat)
    (hv : spki v = false) :
    parse (hostCb spki) p (hPath n a b c x) h (leaf .publicKey v mt) = .ok { h with store := .local, pubData := some v } := by
  have hset : setting (current mt p) = true := by rcases hs with h | h <;> rw [h] <;> rfl
  rw [leaf, parse_set _ _ _ _ _ { h with store := .local, pubData := some v } _ _ _ _ rfl hs, parseList_nil]
  simp only [hostCb, List.head?_cons, Option.map_some, hostPublicKey, show parentN (⟨.publicKey, Option.map Tree.val (List.head? [])⟩ :: hPath n a b c x) 3 .hostKey = true from rfl, hset, if_true, hv, Bool.false_eq_true, if_false]

theorem h_pub_del (spki : Nat → Bool) (n : Nat) (a b c x : Option Nat) (h : HostKey) (v : Nat) (hv : spki v = false) :
    parse (hostCb spki) .none (hPath n a b c x) h (leaf .publicKey v .delete) = .ok h := by
  rw [leaf, parse_del]
  simp [hostCb, hostPublicKey, setting, hv]

theorem h_pfmt (spki : Nat → Bool) (p : Op) (mt : Meta) (hs : current mt p = .create ∨ current mt p = .replace) (path : List Anc) (h : HostKey) (v : Nat)
    (hv : privSupported v = true) : parse (hostCb spki) p path h (leaf .privateKeyFormat v mt) = .ok { h with privType := v } := by
  rw [leaf, parse_set _ _ _ _ _ { h with privType := v } _ _ _ _ rfl hs, parseList_nil]
  simp only [hostCb, List.head?_cons, Option.map_some, hostPrivFormat, hv, if_true]

theorem h_priv (spki : Nat → Bool) (p : Op) (mt : Meta) (hs : current mt p = .create ∨ current mt p = .replace) (path : List Anc) (h : HostKey) (v : Nat) :
    parse (hostCb spki) p path h (leaf .cleartextPrivateKey v mt) = .ok { h with privData := some v } := by
  have hset : setting (current mt p) = true := by rcases hs with h | h <;> rw [h] <;> rfl
  rw [leaf, parse_set _ _ _ _ _ { h with privData := some v } _ _ _ _ rfl hs, parseList_nil]
  simp only [hostCb, List.head?_cons, Option.map_some, hostPrivKey, hset, if_true]

theorem valid_inline (spki : Nat → Bool) (f p : Option Nat) (pf pd : Nat) (h : (HostConf.inline f p pf pd).valid spki = true) :
    (∀ v, f = some v → pubSupported v = true) ∧ (∀ v, p = some v → spki v = false) ∧ privSupported pf = true := by
  simp only [HostConf.valid, Bool.and_eq_true] at h
  refine ⟨?_, ?_, by have := h.2; simp only [privOk, Bool.or_eq_true, beq_iff_eq] at this; simp only [privSupported, decide_eq_true_eq]; omega⟩
  · rintro v rfl; exact h.1.1
  · rintro v rfl; simpa using h.1.2

/-- A key pair created. -/
theorem pair_create (spki : Nat → Bool) (n : Nat) (a b c x : Option Nat) (h : HostKey) (f p : Option Nat) (pf pd : Nat)
    (hv : (HostConf.inline f p pf pd).valid spki = true) :
    (∃ h', parseList (hostCb spki) .create (hPath n a b c x) h (pairTrees f p pf pd) = .ok h' ∧
      h'.store = (if p.isSome then .local else h.store) ∧ h'.privType = pf ∧ h'.privData = some pd ∧ h'.ksRef = h.ksRef) ∧ visitsL inHost (pairTrees f p pf pd) = true := by
  obtain ⟨v1, v2, v3⟩ := valid_inline spki f p pf pd hv
  have e1 : ∃ h1, parseList (hostCb spki) .create (hPath n a b c x) h (optLeaf .publicKeyFormat f) = .ok h1 ∧ h1.store = h.store ∧ h1.ksRef = h.ksRef := by
    cases f with
    | none => exact ⟨h, rfl, rfl, rfl⟩
    | some v => exact ⟨_, (parseList_cons _ _ _ _ _ _ _ (h_fmt spki .create .absent (Or.inl rfl) n a b c x h v)).trans rfl, rfl, rfl⟩
  obtain ⟨h1, a1, a2, a3⟩ := e1
  have e2 : ∃ h2, parseList (hostCb spki) .create (hPath n a b c x) h1 (optLeaf .publicKey p) = .ok h2 ∧ h2.store = (if p.isSome then .local else h.store) ∧ h2.ksRef = h.ksRef := by
    cases p with
    | none => exact ⟨h1, rfl, by simpa using a2, a3⟩
    | some v => exact ⟨_, (parseList_cons _ _ _ _ _ _ _ (h_pub spki .create .absent (Or.inl rfl) n a b c x h1 v (v2 v rfl))).trans rfl, rfl, a3⟩
  obtain ⟨h2, b1, b2, b3⟩ := e2
  refine ⟨⟨{ h2 with privType := pf, privData := some pd }, ?_, b2, rfl, rfl, b3⟩, ?_⟩
  · rw [pairTrees, parseList_append _ _ _ _ _ _ _ a1, parseList_append _ _ _ _ _ _ _ b1,
      parseList_cons _ _ _ _ _ _ _ (h_pfmt spki .create .absent (Or.inl rfl) _ h2 pf v3),
      parseList_cons _ _ _ _ _ _ _ (h_priv spki .create .absent (Or.inl rfl) _ _ pd), parseList_nil]
  · simp only [pairTrees, visitsL_append, Bool.and_eq_true]
    refine ⟨?_, ?_, by simp [visitsL, visits, leaf, inHost, hostLabel]⟩
    · cases f with
      | none => rfl
      | some v => simp [optLeaf, visitsL, visits, leaf, inHost, hostLabel, v1 v rfl]
    · cases p <;> simp [optLeaf, visitsL, visits, leaf, inHost, hostLabel]

theorem leafEdit_old (e : LeafEdit) (o o' : Option Nat) (v : Nat) (h : e.apply o = some o') (he : e = .delete v) : o = some v := by
  subst he
  cases o with
  | none => simp [LeafEdit.apply] at h
  | some w =>
    simp only [LeafEdit.apply] at h
    split at h
    · simp_all
    · cases h

theorem leafEdit_new (e : LeafEdit) (o o' : Option Nat) (v : Nat) (h : e.apply o = some o') (he : e = .create v ∨ e = .replace v) : o' = some v := by
  rcases he with rfl | rfl <;> cases o <;> simp [LeafEdit.apply] at h <;> exact h.symm

theorem leaves_change (spki : Nat → Bool) (n : Nat) (a b c x : Option Nat) (h : HostKey) (f p f' p' : Option Nat) (pf pd : Nat) (ef ep : LeafEdit) (epf epd : Option Nat)
    (h0 : (HostConf.inline f p pf pd).valid spki = true) (hv : (HostConf.inline f' p' (epf.getD pf) (epd.getD pd)).valid spki = true)
    (hf : ef.apply f = some f') (hp : ep.apply p = some p') (hst : h.store = .local) (hpf : h.privType = pf) (hpd : h.privData = some pd) :
    (∃ h', parseList (hostCb spki) .none (hPath n a b c x) h (leafTree .publicKeyFormat ef ++ (leafTree .publicKey ep ++
        (replaced .privateKeyFormat epf ++ replaced .cleartextPrivateKey epd))) = .ok h' ∧
      h'.store = .local ∧ h'.privType = epf.getD pf ∧ h'.privData = some (epd.getD pd)) ∧
    visitsL inHost (leafTree .publicKeyFormat ef ++ (leafTree .publicKey ep ++ (replaced .privateKeyFormat epf ++ replaced .cleartextPrivateKey epd))) = true := by
  obtain ⟨v1, v2, v3⟩ := valid_inline spki _ _ _ _ hv
  obtain ⟨w1, w2, w3⟩ := valid_inline spki _ _ _ _ h0
  have e1 : ∃ h1, parseList (hostCb spki) .none (hPath n a b c x) h (leafTree .publicKeyFormat ef) = .ok h1 ∧ h1.store = .local ∧ h1.privType = pf ∧ h1.privData = some pd := by
    cases ef with
    | keep => exact ⟨h, rfl, hst, hpf, hpd⟩
    | create v => exact ⟨_, (parseList_cons _ _ _ _ _ _ _ (h_fmt spki .none .create (Or.inl rfl) n a b c x h v)).trans rfl, hst, hpf, hpd⟩
    | replace v => exact ⟨_, (parseList_cons _ _ _ _ _ _ _ (h_fmt spki .none .replace (Or.inr rfl) n a b c x h v)).trans rfl, hst, hpf, hpd⟩
    | delete v => exact ⟨_, (parseList_cons _ _ _ _ _ _ _ (h_fmt_del spki n a b c x h v)).trans rfl, hst, hpf, hpd⟩
  obtain ⟨h1, a1, a2, a3, a4⟩ := e1
  have e2 : ∃ h2, parseList (hostCb spki) .none (hPath n a b c x) h1 (leafTree .publicKey ep) = .ok h2 ∧ h2.store = .local ∧ h2.privType = pf ∧ h2.privData = some pd := by
    cases ep with
    | keep => exact ⟨h1, rfl, a2, a3, a4⟩
    | create v => exact ⟨_, (parseList_cons _ _ _ _ _ _ _ (h_pub spki .none .create (Or.inl rfl) n a b c x h1 v (v2 v (leafEdit_new _ _ _ _ hp (Or.inl rfl))))).trans rfl, rfl, a3, a4⟩
    | replace v => exact ⟨_, (parseList_cons _ _ _ _ _ _ _ (h_pub spki .none .replace (Or.inr rfl) n a b c x h1 v (v2 v (leafEdit_new _ _ _ _ hp (Or.inr rfl))))).trans rfl, rfl, a3, a4⟩
    | delete v => exact ⟨_, (parseList_cons _ _ _ _ _ _ _ (h_pub_del spki n a b c x h1 v (w2 v (leafEdit_old _ _ _ _ hp rfl)))).trans rfl, a2, a3, a4⟩
  obtain ⟨h2, b1, b2, b3, b4⟩ := e2
  have e3 : ∃ h3, parseList (hostCb spki) .none (hPath n a b c x) h2 (replaced .privateKeyFormat epf) = .ok h3 ∧ h3.store = .local ∧ h3.privType = epf.getD pf ∧ h3.privData = some pd := by
    cases epf with
    | none => exact ⟨h2, rfl, b2, b3, b4⟩
    | some v => exact ⟨_, (parseList_cons _ _ _ _ _ _ _ (h_pfmt spki .none .replace (Or.inr rfl) _ h2 v v3)).trans rfl, b2, rfl, b4⟩
  obtain ⟨h3, c1, c2, c3, c4⟩ := e3
  have e4 : ∃ h4, parseList (hostCb spki) .none (hPath n a b c x) h3 (replaced .cleartextPrivateKey epd) = .ok h4 ∧ h4.store = .local ∧ h4.privType = epf.getD pf ∧ h4.privData = some (epd.getD pd) := by
    cases epd with
    | none => exact ⟨h3, rfl, c2, c3, c4⟩
    | some v => exact ⟨_, (parseList_cons _ _ _ _ _ _ _ (h_priv spki .none .replace (Or.inr rfl) _ h3 v)).trans rfl, c2, c3, rfl⟩
  obtain ⟨h4, d1, d2⟩ := e4
  refine ⟨⟨h4, ?_, d2⟩, ?_⟩
  · rw [parseList_append _ _ _ _ _ _ _ a1, parseList_append _ _ _ _ _ _ _ b1, parseList_append _ _ _ _ _ _ _ c1, d1]
  · simp only [visitsL_append, Bool.and_eq_true]
    refine ⟨?_, ?_, ?_, ?_⟩
    · cases ef with
      | keep => rfl
      | create v => simp [leafTree, visitsL, visits, leaf, inHost, hostLabel, v1 v (leafEdit_new _ _ _ _ hf (Or.inl rfl))]
      | replace v => simp [leafTree, visitsL, visits, leaf, inHost, hostLabel, v1 v (leafEdit_new _ _ _ _ hf (Or.inr rfl))]
      | delete v => simp [leafTree, visitsL, visits, leaf, inHost, hostLabel, w1 v (leafEdit_old _ _ _ _ hf rfl)]
    · cases ep <;> simp [leafTree, visitsL, visits, leaf, inHost, hostLabel]
    · cases epf <;> simp [replaced, visitsL, visits, leaf, inHost, hostLabel]
    · cases epd <;> simp [replaced, visitsL, visits, leaf, inHost, hostLabel]

theorem h_ref (spki : Nat → Bool) (p : Op) (mt : Meta) (hs : current mt p = .create ∨ current mt p = .replace) (n : Nat) (b c x : Option Nat) (h : HostKey) (v : Nat) :
    parse (hostCb spki) p (⟨.publicKey, b⟩ :: ⟨.hostKey, some n⟩ :: ⟨.serverIdentity, c⟩ :: sPath x) h (leaf .centralKeystoreReference v mt) =
      .ok { h with store := .keystore, ksRef := some v } := by
  have hset : setting (current mt p) = true := by rcases hs with h | h <;> rw [h] <;> rfl
  rw [leaf, parse_set _ _ _ _ _ { h with store := .keystore, ksRef := some v } _ _ _ _ rfl hs, parseList_nil]
  simp only [hostCb, List.head?_cons, Option.map_some, hostKsRef, show parentN (⟨.centralKeystoreReference, Option.map Tree.val (List.head? [])⟩ :: ⟨.publicKey, b⟩ :: ⟨.hostKey, some n⟩ :: ⟨.serverIdentity, c⟩ :: sPath x) 3 .serverIdentity = true from rfl, hset, if_true]

theorem h_ref_del (spki : Nat → Bool) (n : Nat) (b c x : Option Nat) (h : HostKey) (v : Nat) :
    parse (hostCb spki) .none (⟨.publicKey, b⟩ :: ⟨.hostKey, some n⟩ :: ⟨.serverIdentity, c⟩ :: sPath x) h (leaf .centralKeystoreReference v .delete) =
      .ok { h with ksRef := none } := by
  rw [leaf, parse_del]
  simp only [hostCb, List.head?_cons, Option.map_some, hostKsRef, show parentN (⟨.centralKeystoreReference, Option.map Tree.val (List.head? [])⟩ :: ⟨.publicKey, b⟩ :: ⟨.hostKey, some n⟩ :: ⟨.serverIdentity, c⟩ :: sPath x) 3 .serverIdentity = true from rfl, if_true]
  rfl

theorem host_change (spki : Nat → Bool) (n : Nat) (b c x : Option Nat) (h : HostKey) (hc hc' : HostConf) (e : HostChange) (hr : HostRep spki h hc)
    (he : hc.change spki e = some hc') (hl : e.lost = false) :
    (∃ h', parseList (hostCb spki) .none (⟨.publicKey, b⟩ :: ⟨.hostKey, some n⟩ :: ⟨.serverIdentity, c⟩ :: sPath x) h e.trees = .ok h' ∧ HostRep spki h' hc') ∧
    visitsL inHost e.trees = true := by
  cases hc with
  | inline f p pf pd =>
    obtain ⟨hv0, hst, hpf, hpd⟩ := hr
    cases e with
    | leaves ef ep epf epd =>
      simp only [HostConf.change] at he
      cases h1 : ef.apply f with
      | none => rw [h1] at he; simp at he
      | some f' =>
        cases h2 : ep.apply p with
        | none => rw [h1, h2] at he; simp at he
        | some p' =>
          rw [h1, h2] at he
          simp only at he
          split at he
          · rename_i hv
            simp only [Option.some.injEq] at he; subst he
            obtain ⟨⟨h', g1, g2⟩, g3⟩ := leaves_change spki n ((leafTree .publicKeyFormat ef ++ (leafTree .publicKey ep ++
                (replaced .privateKeyFormat epf ++ replaced .cleartextPrivateKey epd))).head?.map Tree.val) b c x h f p f' p' pf pd ef ep epf epd hv0 hv h1 h2 hst hpf hpd
            refine ⟨⟨h', ?_, hv, g2⟩, ?_⟩
            · refine (parseList_cons _ _ _ _ h' _ _ ?_).trans rfl
              rw [parse_none _ _ _ _ _ _ _ _ rfl]; exact g1
            · simp only [HostChange.trees, visitsL, visits, g3, Bool.and_true, Bool.or_true]; rfl
          · cases he
    | reref r => simp [HostConf.change] at he
    | toRef rest r =>
      simp only [HostConf.change, Option.some.injEq] at he; subst he
      refine ⟨⟨{ h with store := .keystore, ksRef := some r }, ?_, rfl, rfl, rfl⟩, by simp [HostChange.trees, visitsL, visits, leaf, inHost, hostLabel]⟩
      have h0 : parse (hostCb spki) .none (⟨.publicKey, b⟩ :: ⟨.hostKey, some n⟩ :: ⟨.serverIdentity, c⟩ :: sPath x) h (.node .inlineDefinition 0 .delete rest) = .ok h := by
        rw [parse_del]; rfl
      rw [HostChange.trees, parseList_cons _ _ _ _ _ _ _ h0, parseList_cons _ _ _ _ _ _ _ (h_ref spki .none .create (Or.inl rfl) n b c x h r), parseList_nil]
    | toInline o f' p' pf' pd' => simp [HostConf.change] at he
  | ref r0 =>
    obtain ⟨-, hst, hrf⟩ := hr
    cases e with
    | leaves ef ep epf epd => simp [HostConf.change] at he
    | toRef rest r => simp [HostConf.change] at he
    | reref r =>
      simp only [HostConf.change, Option.some.injEq] at he; subst he
      refine ⟨⟨{ h with store := .keystore, ksRef := some r }, ?_, rfl, rfl, rfl⟩, by simp [HostChange.trees, visitsL, visits, leaf, inHost, hostLabel]⟩
      rw [HostChange.trees, parseList_cons _ _ _ _ _ _ _ (h_ref spki .none .replace (Or.inr rfl) n b c x h r), parseList_nil]
    | toInline o f' p' pf' pd' =>
      simp only [HostConf.change] at he
      split at he
      · rename_i hv
        simp only [Bool.and_eq_true] at hv
        simp only [Option.some.injEq] at he; subst he
        obtain ⟨⟨h', g1, g2, g3, g4, g5⟩, g6⟩ := pair_create spki n ((pairTrees f' p' pf' pd').head?.map Tree.val) b c x h f' p' pf' pd' hv.2
        have hp : p'.isSome = true := by cases p' with
          | none => simp [HostChange.lost] at hl
          | some v => rfl
        rw [hp] at g2
        have h0 : parse (hostCb spki) .none (⟨.publicKey, b⟩ :: ⟨.hostKey, some n⟩ :: ⟨.serverIdentity, c⟩ :: sPath x) h (.node .inlineDefinition 0 .create (pairTrees f' p' pf' pd')) = .ok h' := by
          rw [parse_set _ _ _ _ _ h _ _ _ .create rfl (Or.inl rfl) rfl]; exact g1
        refine ⟨⟨{ h' with ksRef := none }, ?_, hv.2, g2, g3, g4⟩, ?_⟩
        · rw [HostChange.trees, parseList_cons _ _ _ _ _ _ _ h0, parseList_cons _ _ _ _ _ _ _ (h_ref_del spki n b c x h' o), parseList_nil]
        · simp only [HostChange.trees, visitsL, visits, g6, Bool.or_true, Bool.and_true]; rfl
      · cases he

theorem host_create (spki : Nat → Bool) (n : Nat) (b c x : Option Nat) (k : Nat) (hc : HostConf) (hv : hc.valid spki = true) (ts : List Tree)
    (ht : ts = hc.trees) :
    (∃ h', parseList (hostCb spki) .create (⟨.publicKey, b⟩ :: ⟨.hostKey, some n⟩ :: ⟨.serverIdentity, c⟩ :: sPath x) (newHostKey k) ts = .ok h' ∧ HostRep spki h' hc) ∧
    visitsL inHost ts = true := by
  subst ht
  cases hc with
  | inline f p pf pd =>
    obtain ⟨⟨h', g1, g2, g3, g4, g5⟩, g6⟩ := pair_create spki n ((pairTrees f p pf pd).head?.map Tree.val) b c x (newHostKey k) f p pf pd hv
    refine ⟨⟨h', ?_, hv, ?_, g3, g4⟩, ?_⟩
    · refine (parseList_cons _ _ _ _ h' _ _ ?_).trans rfl
      rw [parse_set _ _ _ _ _ (newHostKey k) _ _ _ .create rfl (Or.inl rfl) rfl]; exact g1
    · rw [g2]; cases p <;> rfl
    · simp only [HostConf.trees, visitsL, visits, g6, Bool.or_true, Bool.and_true]; rfl
  | ref r =>
    refine ⟨⟨{ newHostKey k with store := .keystore, ksRef := some r }, ?_, rfl, rfl, rfl⟩, by simp [HostConf.trees, visitsL, visits, leaf, inHost, hostLabel]⟩
    exact (parseList_cons _ _ _ _ _ _ _ (h_ref spki .create .absent (Or.inl rfl) n b c x _ r)).trans rfl

/-- The path of a host key. -/
def hkPath (n : Nat) (c x : Option Nat) : List Anc := ⟨.hostKey, some n⟩ :: ⟨.serverIdentity, c⟩ :: sPath x

theorem hkPath_good (n : Nat) (c x : Option Nat) : hostPath (hkPath n c x) ∧ keyOr (hkPath n c x) .hostKey = some n := by
  constructor
  · intro a ha
    simp only [hkPath, sPath, List.mem_cons, List.not_mem_nil, or_false] at ha
    rcases ha with rfl | rfl | rfl <;> simp
  · simp [hkPath, keyOr, keyOf_head]

theorem host_name (spki : Nat → Bool) (s : Ssh) (n i : Nat) (u : HostKey) (hi : s.hostKeys.findIdx? (fun u => u.name == n) = some i)
    (hu : s.hostKeys[i]? = some u) (p : Op) (path : List Anc) (hg : hostPath path ∧ keyOr path .hostKey = some n) (ts : List Tree) (u' : HostKey)
    (hv : visitsL inHost ts = true) (h : parseList (hostCb spki) p path u ts = .ok u') :
    parseList (sshCb spki) p path s ts = .ok { s with hostKeys := s.hostKeys.set i u' } ∧ u'.name = u.name := by
  have := focusL (hostFocus spki s n i u hi hu) ts p path u u' hg rfl hv h
  simp only [set_self _ _ _ hu] at this
  exact this

/-- The host keys of the endpoint. -/
def HostsInv (spki : Nat → Bool) (us : List User) (s : Ssh) (m : Map HostConf) : Prop := s.users = us ∧ Holds HostKey.name (HostRep spki) s.hostKeys m

theorem host_create_step (spki : Nat → Bool) (us : List User) (c x : Option Nat) (p : Op) (mt : Meta) (hm : current mt p = .create)
    (s : Ssh) (m : Map HostConf) (hi : HostsInv spki us s m) (k : Nat) (q : HostConf) (hk : m k = none) (hq : q.valid spki = true) :
    ∃ s', parse (sshCb spki) p (⟨.serverIdentity, c⟩ :: sPath x) s (hostData k q mt) = .ok s' ∧ HostsInv spki us s' (upd m k (some q)) ∧
      s'.hostKeys.map HostKey.name = s.hostKeys.map HostKey.name ++ [k] := by
  obtain ⟨ts, hts⟩ : ∃ ts, ts = q.trees := ⟨_, rfl⟩
  obtain ⟨⟨u', h1, h2⟩, h3⟩ := host_create spki k (ts.head?.map Tree.val) c x k q hq ts hts
  have hfi : (s.hostKeys ++ [newHostKey k]).findIdx? (fun u => u.name == k) = some s.hostKeys.length :=
    findIdx_new _ s.hostKeys (newHostKey k) (holds_absent HostKey.name _ _ _ hi.2 k hk) (by simp [newHostKey])
  have h4 : parseList (hostCb spki) .create (hkPath k c x) (newHostKey k) [leaf .name k, .node .publicKey 0 .absent ts] = .ok u' := by
    rw [parseList_cons _ _ _ _ _ _ _ (hname_cb spki .create (Or.inl rfl) _ _ _)]
    refine (parseList_cons _ _ _ _ u' _ _ ?_).trans rfl
    rw [parse_set _ _ _ _ _ (newHostKey k) _ _ _ .create rfl (Or.inl rfl) (by rfl)]
    exact h1
  have h5 : visitsL inHost [leaf .name k, .node .publicKey 0 .absent ts] = true := by
    simp only [visitsL, visits, leaf, h3, Bool.or_true, Bool.and_true]; rfl
  obtain ⟨f1, f2⟩ := host_name spki { s with hostKeys := s.hostKeys ++ [newHostKey k] } k s.hostKeys.length (newHostKey k) hfi (by simp) .create _ (hkPath_good k c x) _ u' h5 h4
  have hset : (s.hostKeys ++ [newHostKey k]).set s.hostKeys.length u' = s.hostKeys ++ [u'] := by
    rw [List.set_append_right _ _ (Nat.le_refl _)]; simp
  refine ⟨{ s with hostKeys := s.hostKeys ++ [u'] }, ?_, ⟨hi.1, ?_⟩, by simp [f2, newHostKey]⟩
  · rw [hostData, ← hts, parse_set _ _ _ _ _ { s with hostKeys := s.hostKeys ++ [newHostKey k] } _ _ _ _ hm (Or.inl rfl) (by rfl)]
    refine Eq.trans ?_ (f1.trans ?_)
    · rfl
    · simp only [hset]
  · have := holds_append HostKey.name (HostRep spki) s.hostKeys m hi.2 u' q (by rw [f2]; exact hk) h2
    rw [f2] at this; exact this

theorem host_step (spki : Nat → Bool) (us : List User) (c x : Option Nat)
    (s : Ssh) (m : Map HostConf) (e : HostEdit) (m' : Map HostConf) (hi : HostsInv spki us s m)
    (h : patch (fun c => if HostConf.valid spki c then some c else none) (fun c e => if e.lost then none else HostConf.change spki c e) m e = some m') :
    ∃ s', parse (sshCb spki) .none (⟨.serverIdentity, c⟩ :: sPath x) s (hostTree e) = .ok s' ∧ HostsInv spki us s' m' ∧
      (isDelete e = false → s'.hostKeys.map HostKey.name = hostOrder (s.hostKeys.map HostKey.name) e) := by
  cases e with
  | create k q =>
    obtain ⟨h1, y, h2, rfl⟩ := patch_create _ _ _ _ _ _ h
    split at h2
    · rename_i hv
      simp only [Option.some.injEq] at h2; subst h2
      obtain ⟨s', g1, g2, g3⟩ := host_create_step spki us c x .none .create rfl s m hi k q h1 hv
      exact ⟨s', g1, g2, fun _ => g3⟩
    · cases h2
  | delete k r =>
    obtain ⟨⟨y, hy⟩, rfl⟩ := patch_delete _ _ _ _ _ _ h
    obtain ⟨i, u, h1, h2, h3, h4, h5⟩ := holds_get HostKey.name _ _ _ hi.2 k y hy
    have hst : u.store = .local ∨ u.store = .keystore := by
      cases y with
      | inline f p pf pd => exact Or.inl h5.2.1
      | ref n => exact Or.inr h5.2.1
    refine ⟨{ s with hostKeys := swapDel s.hostKeys i }, ?_, ⟨hi.1, holds_del HostKey.name _ _ _ hi.2 k i u h2 h4⟩, by simp [isDelete]⟩
    rw [hostTree, parse_del]
    have e0 : Option.map Tree.val (List.head? (leaf .name k :: r)) = some k := rfl
    rw [e0]
    have hk : keyOr (⟨.hostKey, some k⟩ :: ⟨.serverIdentity, c⟩ :: sPath x) .hostKey = some k := (hkPath_good k c x).2
    simp only [sshCb, List.head?_cons, Option.map_some, cfgHostKey, show parentN (⟨.hostKey, some k⟩ :: ⟨.serverIdentity, c⟩ :: sPath x) 1 .serverIdentity = true from rfl,
      reduceCtorEq, if_false, if_true, hk, Option.bind_some, h1, h2, hst]
  | change k e =>
    obtain ⟨y, z, hy, hz, rfl⟩ := patch_change _ _ _ _ _ _ h
    have hl : e.lost = false := by
      cases hl : e.lost with
      | false => rfl
      | true => rw [hl] at hz; simp at hz
    rw [hl] at hz
    simp only [Bool.false_eq_true, if_false] at hz
    obtain ⟨i, u, h1, h2, h3, h4, h5⟩ := holds_get HostKey.name _ _ _ hi.2 k y hy
    obtain ⟨⟨u', g1, g2⟩, g3⟩ := host_change spki k (e.trees.head?.map Tree.val) c x u y z e h5 hz hl
    have g4 : parseList (hostCb spki) .none (hkPath k c x) u [leaf .name k, .node .publicKey 0 .none e.trees] = .ok u' := by
      rw [parseList_cons _ _ _ _ _ _ _ (hname_cb spki .none (Or.inr rfl) _ _ _)]
      refine (parseList_cons _ _ _ _ u' _ _ ?_).trans rfl
      rw [parse_none _ _ _ _ _ _ _ _ rfl]
      exact g1
    have g5 : visitsL inHost [leaf .name k, .node .publicKey 0 .none e.trees] = true := by
      simp only [visitsL, visits, leaf, g3, Bool.or_true, Bool.and_true]; rfl
    obtain ⟨f1, f2⟩ := host_name spki s k i u h1 h2 .none _ (hkPath_good k c x) _ u' g5 g4
    refine ⟨{ s with hostKeys := s.hostKeys.set i u' }, ?_, ⟨hi.1, holds_set HostKey.name _ _ _ hi.2 k i u u' h1 h2 f2 z g2⟩, fun _ => ?_⟩
    · rw [hostTree, parse_none _ _ _ _ _ _ _ _ rfl]
      exact f1
    · simp only [hostOrder, List.map_set, f2]
      refine set_self _ _ _ ?_
      simp [h2]

theorem hosts_edits (spki : Nat → Bool) (us : List User) (c x : Option Nat) (es : List HostEdit) : ∀ (s : Ssh) (m m' : Map HostConf), HostsInv spki us s m →
    patchAll (fun c => if HostConf.valid spki c then some c else none) (fun c e => if e.lost then none else HostConf.change spki c e) m es = some m' →
    ∃ s', parseList (sshCb spki) .none (⟨.serverIdentity, c⟩ :: sPath x) s (es.map hostTree) = .ok s' ∧ HostsInv spki us s' m' ∧
      (es.all (fun e => !isDelete e) = true → s'.hostKeys.map HostKey.name = es.foldl hostOrder (s.hostKeys.map HostKey.name)) := by
  induction es with
  | nil => intro s m m' hi h; simp only [patchAll, Option.some.injEq] at h; subst h; exact ⟨s, rfl, hi, fun _ => rfl⟩
  | cons e es ih =>
    intro s m m' hi h
    simp only [patchAll] at h
    cases hp : patch (fun c => if HostConf.valid spki c then some c else none) (fun c e => if HostChange.lost e then none else HostConf.change spki c e) m e with
    | none => rw [hp] at h; cases h
    | some m1 =>
      rw [hp] at h
      obtain ⟨s1, a1, a2, a3⟩ := host_step spki us c x s m e m1 hi hp
      obtain ⟨s2, b1, b2, b3⟩ := ih s1 m1 m' a2 h
      refine ⟨s2, ?_, b2, ?_⟩
      · rw [List.map_cons, parseList_cons _ _ _ _ _ _ _ a1]; exact b1
      · intro hd
        simp only [List.all_cons, Bool.and_eq_true, Bool.not_eq_true'] at hd
        rw [b3 hd.2, a3 hd.1]; rfl

theorem hosts_creates (spki : Nat → Bool) (us : List User) (c x : Option Nat) (l : List (Nat × HostConf)) : ∀ (s : Ssh) (m m' : Map HostConf), HostsInv spki us s m →
    patchHosts spki m (l.map (fun p => .create p.1 p.2)) = some m' →
    ∃ s', parseList (sshCb spki) .create (⟨.serverIdentity, c⟩ :: sPath x) s (l.map (fun p => hostData p.1 p.2)) = .ok s' ∧ HostsInv spki us s' m' ∧
      s'.hostKeys.map HostKey.name = s.hostKeys.map HostKey.name ++ l.map Prod.fst := by
  induction l with
  | nil => intro s m m' hi h; simp only [patchHosts, List.map_nil, patchAll, Option.some.injEq] at h; subst h; exact ⟨s, rfl, hi, by simp⟩
  | cons q l ih =>
    intro s m m' hi h
    simp only [patchHosts, List.map_cons, patchAll] at h
    cases hp : patch (fun c => if HostConf.valid spki c then some c else none) (HostConf.change spki) m (.create q.1 q.2) with
    | none => rw [hp] at h; cases h
    | some m1 =>
      rw [hp] at h
      obtain ⟨h1, y, h2, rfl⟩ := patch_create _ _ _ _ _ _ hp
      split at h2
      · rename_i hv
        simp only [Option.some.injEq] at h2; subst h2
        obtain ⟨s1, a1, a2, a3⟩ := host_create_step spki us c x .create .absent rfl s m hi q.1 q.2 h1 hv
        obtain ⟨s2, b1, b2, b3⟩ := ih s1 _ m' a2 h
        refine ⟨s2, ?_, b2, ?_⟩
        · rw [List.map_cons, parseList_cons _ _ _ _ _ _ _ a1]; exact b1
        · rw [b3, a3]; simp
      · cases h2

/-! ## The endpoint -/

/-- What is stored for the endpoint. -/
def SshRep (spki : Nat → Bool) (s : Ssh) (c : SshConf) : Prop :=
  Holds HostKey.name (HostRep spki) s.hostKeys c.hosts ∧ Holds User.name UserRep s.users c.users

theorem ssh_diff (spki : Nat → Bool) (s : Ssh) (c c' : SshConf) (d : SshDiff) (hr : SshRep spki s c) (h : patchSafe spki c d = some c') :
    ∃ s', parse (sshCb spki) .unknown [] s (sshTree d) = .ok s' ∧ SshRep spki s' c' ∧
      (d.hosts.all (fun e => !isDelete e) = true → s'.hostKeys.map HostKey.name = d.hosts.foldl hostOrder (s.hostKeys.map HostKey.name)) := by
  simp only [patchSafe] at h
  split at h
  · rename_i hm um e1 e2
    simp only [Option.some.injEq] at h; subst h
    obtain ⟨s1, a1, a2, a3⟩ := hosts_edits spki s.users ((d.hosts.map hostTree).head?.map Tree.val) (some 0) d.hosts s c.hosts hm ⟨rfl, hr.1⟩ e1
    obtain ⟨s2, b1, b2⟩ := edits_ok (sshCb spki) .none (⟨.users, (d.users.map userTree).head?.map Tree.val⟩ :: ⟨.clientAuthentication, some 0⟩ :: sPath (some 0)) _ _ userTree (UsersInv s1.hostKeys)
      (fun s m e m' => user_step spki _ _ _ _ s m e m') d.users s1 c.users um ⟨rfl, by rw [a2.1]; exact hr.2⟩ e2
    refine ⟨s2, ?_, ⟨?_, b2.2⟩, fun hd => by rw [b2.1]; exact a3 hd⟩
    · have h1 : ∀ s, parse (sshCb spki) .none [⟨.sshServerParameters, some 0⟩] s (.node .serverIdentity 0 .none (d.hosts.map hostTree)) =
          parseList (sshCb spki) .none (⟨.serverIdentity, (d.hosts.map hostTree).head?.map Tree.val⟩ :: sPath (some 0)) s (d.hosts.map hostTree) := by
        intro s; rw [parse_none _ _ _ _ _ _ _ _ rfl]; rfl
      have h2 : ∀ s, parse (sshCb spki) .none [⟨.sshServerParameters, some 0⟩] s (.node .clientAuthentication 0 .none [.node .users 0 .none (d.users.map userTree)]) =
          parseList (sshCb spki) .none [⟨.clientAuthentication, some 0⟩, ⟨.sshServerParameters, some 0⟩] s [.node .users 0 .none (d.users.map userTree)] := by
        intro s; rw [parse_none _ _ _ _ _ _ _ _ rfl]; rfl
      have h3 : ∀ s, parse (sshCb spki) .none [⟨.clientAuthentication, some 0⟩, ⟨.sshServerParameters, some 0⟩] s (.node .users 0 .none (d.users.map userTree)) =
          parseList (sshCb spki) .none (⟨.users, (d.users.map userTree).head?.map Tree.val⟩ :: ⟨.clientAuthentication, some 0⟩ :: sPath (some 0)) s (d.users.map userTree) := by
        intro s; rw [parse_none _ _ _ _ _ _ _ _ rfl]; rfl
      rw [sshTree, parse_none _ _ _ _ _ _ _ _ rfl]
      refine (parseList_cons _ _ _ _ s1 _ _ ((h1 s).trans a1)).trans ?_
      refine (parseList_cons _ _ _ _ s2 _ _ ((h2 s1).trans ?_)).trans rfl
      exact (parseList_cons _ _ _ _ s2 _ _ ((h3 s1).trans b1)).trans rfl
    · rw [b2.1]; exact a2.2
  · cases h

theorem ssh_data (spki : Nat → Bool) (d : SshData) (c : SshConf) (h : d.conf spki = some c) :
    ∃ s', parse (sshCb spki) .create [] ⟨[], []⟩ d.tree = .ok s' ∧ SshRep spki s' c ∧ s'.hostKeys.map HostKey.name = d.hosts.map Prod.fst := by
  simp only [SshData.conf, patchSsh] at h
  split at h
  · rename_i hm um e1 e2
    simp only [Option.some.injEq] at h; subst h
    obtain ⟨s1, a1, a2, a3⟩ := hosts_creates spki [] ((d.hosts.map (fun p => hostData p.1 p.2)).head?.map Tree.val) (some 0) d.hosts ⟨[], []⟩ (fun _ => none) hm ⟨rfl, holds_nil _ _⟩ e1
    obtain ⟨s2, b1, b2⟩ := creates_ok (sshCb spki) (⟨.users, (d.users.map (fun p => userData p.1 p.2)).head?.map Tree.val⟩ :: ⟨.clientAuthentication, some 0⟩ :: sPath (some 0)) _ _ (fun k x => userData k x) (UsersInv s1.hostKeys)
      (by
        intro s m k q m' hi hp
        obtain ⟨h1, y, h2, rfl⟩ := patch_create _ _ _ _ _ _ hp
        exact user_create_step spki _ _ _ _ .create .absent rfl s m hi k q y h1 h2) d.users s1 (fun _ => none) um ⟨rfl, by rw [a2.1]; exact holds_nil _ _⟩ e2
    refine ⟨s2, ?_, ⟨?_, b2.2⟩, by rw [b2.1, a3]; simp⟩
    · have h1 : ∀ s, parse (sshCb spki) .create [⟨.sshServerParameters, some 0⟩] s (.node .serverIdentity 0 .absent (d.hosts.map (fun p => hostData p.1 p.2))) =
          parseList (sshCb spki) .create (⟨.serverIdentity, (d.hosts.map (fun p => hostData p.1 p.2)).head?.map Tree.val⟩ :: sPath (some 0)) s (d.hosts.map (fun p => hostData p.1 p.2)) := by
        intro s; rw [parse_set _ _ _ _ _ s _ _ _ .create rfl (Or.inl rfl) (by rfl)]; rfl
      have h2 : ∀ s, parse (sshCb spki) .create [⟨.sshServerParameters, some 0⟩] s (.node .clientAuthentication 0 .absent [.node .users 0 .absent (d.users.map (fun p => userData p.1 p.2))]) =
          parseList (sshCb spki) .create [⟨.clientAuthentication, some 0⟩, ⟨.sshServerParameters, some 0⟩] s [.node .users 0 .absent (d.users.map (fun p => userData p.1 p.2))] := by
        intro s; rw [parse_set _ _ _ _ _ s _ _ _ .create rfl (Or.inl rfl) (by rfl)]; rfl
      have h3 : ∀ s, parse (sshCb spki) .create [⟨.clientAuthentication, some 0⟩, ⟨.sshServerParameters, some 0⟩] s (.node .users 0 .absent (d.users.map (fun p => userData p.1 p.2))) =
          parseList (sshCb spki) .create (⟨.users, (d.users.map (fun p => userData p.1 p.2)).head?.map Tree.val⟩ :: ⟨.clientAuthentication, some 0⟩ :: sPath (some 0)) s (d.users.map (fun p => userData p.1 p.2)) := by
        intro s; rw [parse_set _ _ _ _ _ s _ _ _ .create rfl (Or.inl rfl) (by rfl)]; rfl
      rw [SshData.tree, parse_set _ _ _ _ _ ⟨[], []⟩ _ _ _ .create rfl (Or.inl rfl) (by rfl)]
      refine (parseList_cons _ _ _ _ s1 _ _ ((h1 _).trans a1)).trans ?_
      refine (parseList_cons _ _ _ _ s2 _ _ ((h2 s1).trans ?_)).trans rfl
      exact (parseList_cons _ _ _ _ s2 _ _ ((h3 s1).trans b1)).trans rfl
    · rw [b2.1]; exact a2.2
  · cases h

theorem userAs_of_rep (u : User) (c : UserConf) (h : UserRep u c) : UserAs u c := by
  obtain ⟨h1, h2⟩ := h
  refine ⟨?_, h2⟩
  cases hk : c.keys with
  | none =>
    rw [hk] at h1; simp only [KeysRep] at h1
    rw [h1]; rfl
  | some x =>
    rw [hk] at h1
    cases x with
    | inline m =>
      obtain ⟨l, h1, hl⟩ := h1
      refine ⟨l, hl, ?_⟩
      rw [h1]
      cases l with
      | nil => rfl
      | cons p t => simp [User.auth, inl_keys]; simp [inl]
    | bag n => simp only [KeysRep] at h1; rw [h1]; rfl
    | system => simp only [KeysRep] at h1; rw [h1]; rfl

theorem hostAs_of_rep (spki : Nat → Bool) (h : HostKey) (c : HostConf) (hr : HostRep spki h c) : HostAs h c := by
  cases c with
  | inline f p pf pd => obtain ⟨-, h1, h2, h3⟩ := hr; simp [HostAs, HostKey.priv, h1, h2, h3]
  | ref n => obtain ⟨-, h1, h2⟩ := hr; simp [HostAs, HostKey.priv, h1, h2]

theorem holds_mono {α β : Type} (key : α → Nat) (R R' : α → β → Prop) (hR : ∀ a b, R a b → R' a b) (l : List α) (m : Map β) (h : Holds key R l m) : Holds key R' l m := by
  refine ⟨h.1, fun n => ?_⟩
  have := h.2 n
  cases h1 : l.find? (fun x => key x == n) <;> cases h2 : m n <;> rw [h1, h2] at this <;> simp_all [OptRel]

theorem sshAs_of_rep (spki : Nat → Bool) (s : Ssh) (c : SshConf) (h : SshRep spki s c) : SshAs s c :=
  ⟨holds_mono _ _ _ (hostAs_of_rep spki) _ _ h.1, holds_mono _ _ _ userAs_of_rep _ _ h.2⟩

theorem diffs_ok (spki : Nat → Bool) (ds : List SshDiff) : ∀ (s : Ssh) (c c' : SshConf), SshRep spki s c → patchSafeAll spki c ds = some c' →
    ∃ s', diffs spki (ds.map sshTree) s = .ok s' ∧ SshRep spki s' c' ∧
      ((∀ d ∈ ds, d.hosts.all (fun e => !isDelete e) = true) →
        s'.hostKeys.map HostKey.name = ds.foldl (fun ns d => d.hosts.foldl hostOrder ns) (s.hostKeys.map HostKey.name)) := by
  induction ds with
  | nil => intro s c c' hr h; simp only [patchSafeAll, Option.some.injEq] at h; subst h; exact ⟨s, rfl, hr, fun _ => rfl⟩
  | cons d ds ih =>
    intro s c c' hr h
    simp only [patchSafeAll] at h
    cases hp : patchSafe spki c d with
    | none => rw [hp] at h; cases h
    | some c1 =>
      rw [hp] at h
      obtain ⟨s1, a1, a2, a3⟩ := ssh_diff spki s c c1 d hr hp
      obtain ⟨s2, b1, b2, b3⟩ := ih s1 c1 c' a2 h
      refine ⟨s2, by simp only [List.map_cons, diffs, a1]; exact b1, b2, ?_⟩
      intro hd
      rw [b3 (fun d' h' => hd d' (by simp [h'])), a3 (hd d (by simp))]; rfl

theorem run_ok (spki : Nat → Bool) (d : SshData) (ds : List SshDiff) (c c' : SshConf) (h : d.conf spki = some c) (h' : patchSafeAll spki c ds = some c') :
    ∃ s, run spki d.tree (ds.map sshTree) = .ok s ∧ SshRep spki s c' ∧
      ((∀ d ∈ ds, d.hosts.all (fun e => !isDelete e) = true) →
        s.hostKeys.map HostKey.name = ds.foldl (fun ns d => d.hosts.foldl hostOrder ns) (d.hosts.map Prod.fst)) := by
  obtain ⟨s1, a1, a2, a3⟩ := ssh_data spki d c h
  obtain ⟨s2, b1, b2, b3⟩ := diffs_ok spki ds s1 c c' a2 h'
  exact ⟨s2, by simp only [run, a1]; exact b1, b2, fun hd => by rw [b3 hd, a3]⟩

theorem diffs_append (spki : Nat → Bool) (a b : List Tree) (s s' : Ssh) (h : diffs spki a s = .ok s') : diffs spki (a ++ b) s = diffs spki b s' := by
  induction a generalizing s with
  | nil => simp only [diffs, Res.ok.injEq] at h; subst h; rfl
  | cons t a ih =>
    simp only [List.cons_append, diffs] at h ⊢
    cases hp : parse (sshCb spki) .unknown [] s t with
    | ok s1 => rw [hp] at h; exact ih s1 h
    | fail s1 => rw [hp] at h; cases h
    | ub => rw [hp] at h; cases h

theorem run_append (spki : Nat → Bool) (t : Tree) (a b : List Tree) (s' : Ssh) (h : run spki t a = .ok s') : run spki t (a ++ b) = diffs spki b s' := by
  simp only [run] at h ⊢
  cases hp : parse (sshCb spki) .create [] ⟨[], []⟩ t with
  | ok s1 => rw [hp] at h; exact diffs_append spki a b s1 s' h
  | fail s1 => rw [hp] at h; cases h
  | ub => rw [hp] at h; cases h

/-- A diff that changes one user only. -/
theorem user_diff (spki : Nat → Bool) (s : Ssh) (n i : Nat) (u u' : User) (e : UserChange) (hi : s.users.findIdx? (fun u => u.name == n) = some i)
    (hu : s.users[i]? = some u)
    (hv : visitsL inUser (e.keys.trees ++ (leafTree .password e.password ++ (noneTrees e.noneOk ++ kbdTrees e.kbdint))) = true)
    (h : parseList (userCb spki) .none (uPath n (some 0) (some 0) (sPath (some 0))) u
      (e.keys.trees ++ (leafTree .password e.password ++ (noneTrees e.noneOk ++ kbdTrees e.kbdint))) = .ok u') :
    diffs spki [sshTree ⟨[], [.change n e]⟩] s = .ok { s with users := s.users.set i u' } ∧ u'.name = u.name := by
  obtain ⟨f1, f2⟩ := user_name spki s n i u hi hu .none _ (uPath_good n (some 0) (some 0) (some 0)) _ u' hv h
  refine ⟨?_, f2⟩
  have h0 : parse (sshCb spki) .none (⟨.users, some 0⟩ :: ⟨.clientAuthentication, some 0⟩ :: sPath (some 0)) s (userTree (.change n e)) = .ok { s with users := s.users.set i u' } := by
    rw [userTree, parse_none _ _ _ _ _ _ _ _ rfl, parseList_cons _ _ _ _ _ _ _ (name_ssh spki .none (Or.inr rfl) _ _ _)]
    exact f1
  have h1 : parse (sshCb spki) .none (⟨.clientAuthentication, some 0⟩ :: sPath (some 0)) s (.node .users 0 .none [userTree (.change n e)]) = .ok { s with users := s.users.set i u' } := by
    rw [parse_none _ _ _ _ _ _ _ _ rfl]
    exact (parseList_cons _ _ _ _ _ _ _ h0).trans rfl
  have h2 : parse (sshCb spki) .none (sPath (some 0)) s (.node .clientAuthentication 0 .none [.node .users 0 .none [userTree (.change n e)]]) = .ok { s with users := s.users.set i u' } := by
    rw [parse_none _ _ _ _ _ _ _ _ rfl]
    exact (parseList_cons _ _ _ _ _ _ _ h1).trans rfl
  have h3 : parse (sshCb spki) .none (sPath (some 0)) s (.node .serverIdentity 0 .none []) = .ok s := by
    rw [parse_none _ _ _ _ _ _ _ _ rfl]; rfl
  have h4 : parse (sshCb spki) .unknown [] s (sshTree ⟨[], [.change n e]⟩) = .ok { s with users := s.users.set i u' } := by
    rw [sshTree, parse_none _ _ _ _ _ _ _ _ rfl]
    refine (parseList_cons _ _ _ _ _ _ _ h3).trans ?_
    exact (parseList_cons _ _ _ _ _ _ _ h2).trans rfl
  simp only [diffs, h4]

/-- Keys given in the configuration replaced by others: what is stored afterwards. -/
theorem switch_inline (spki : Nat → Bool) (n : Nat) (c d : Option Nat) (rest : List Anc) (u : User) (r : List Tree) :
    (∀ b, parseList (userCb spki) .none (uPath n c d rest) u (KeysEdit.switch (.inline r) (.bag b)).trees = .ok { u with store := .truststore, ptr := .str b }) ∧
    parseList (userCb spki) .none (uPath n c d rest) u (KeysEdit.switch (.inline r) .system).trees = .ok { u with store := .system } := by
  have h0 : ∀ path, parse (userCb spki) .none path u (.node .inlineDefinition 0 .delete r) = .ok u := by
    intro path; rw [parse_del]; rfl
  refine ⟨fun b => ?_, ?_⟩
  · refine (parseList_cons _ _ _ _ { u with store := .truststore, ptr := .str b } _ _ ?_).trans rfl
    rw [parse_none _ _ _ _ _ _ _ _ rfl]
    refine (parseList_cons _ _ _ _ _ _ _ (h0 _)).trans ?_
    rfl
  · refine (parseList_cons _ _ _ _ { u with store := .system } _ _ ?_).trans rfl
    rw [parse_none _ _ _ _ _ _ _ _ rfl]
    refine (parseList_cons _ _ _ _ _ _ _ (h0 _)).trans ?_
    rfl

end Verif.ConfUsers
