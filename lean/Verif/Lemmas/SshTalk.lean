import Verif.Lemmas.ClientSsh
import Verif.Lemmas.SshAuth
import Verif.Spec.SshTalk

namespace Verif.SshTalk
open Verif.ClientSsh (Server Res Methods Key KeyFiles keysLoop attempt authLoop authLoop_ind authLoop_step authLoop_none authLoop_some choose)
open Verif.SshAuth (Env AuthMsg Conn Reply sshMsg fresh authKnown auth tryMethod Client ClientOf Verified)

/-- The server after the requests of these steps, from some connection. -/
def serve (e : Env) (lu : Bool) (so : SshAuth.Opts) (me : Me) : List ClientSsh.Ev → Conn → Conn
  | [], c => c
  | ev :: evs, c => serve e lu so me evs (match sent me ev with | none => c | some m => (ask e lu so m c).2)

theorem serve_append (e : Env) (lu : Bool) (so : SshAuth.Opts) (me : Me) (a b : List ClientSsh.Ev) (c : Conn) :
    serve e lu so me (a ++ b) c = serve e lu so me b (serve e lu so me a c) := by
  induction a generalizing c with
  | nil => rfl
  | cons x t ih => simp [serve, ih]

theorem served_eq (e : Env) (lu : Bool) (so : SshAuth.Opts) (me : Me) (evs : List ClientSsh.Ev) :
    served e lu so me evs = serve e lu so me evs fresh := by
  unfold served
  suffices h : ∀ c, (SshAuth.run e lu so ((evs.filterMap (sent me)).map (fun m => .msg (.auth m) false)) c).2 = serve e lu so me evs c from h _
  induction evs with
  | nil => intro c; rfl
  | cons x t ih =>
    intro c
    cases hx : sent me x with
    | none => simp [hx, serve, ih]
    | some m => simp [hx, serve, SshAuth.run, ask, ih]

/-- A connection during authentication of this user. -/
structure Going (c : Conn) (user : List Char) : Prop where
  na : c.main.authenticated = false
  st : c.main.status = .starting
  us : c.main.username = none ∨ c.main.username = some user

theorem ask_eq {e : Env} {lu : Bool} {so : SshAuth.Opts} {m : AuthMsg} {c : Conn} (h : Going c m.user) :
    ask e lu so m c = (res (auth e lu so m c.main c.authState).1,
      { c with main := (auth e lu so m c.main c.authState).2.1, authState := (auth e lu so m c.main c.authState).2.2 }) := by
  simp [ask, sshMsg, h.na, h.st]

theorem authKnown_cases (e : Env) (cl : Option Client) (m : AuthMsg) (s : SshAuth.Sess) (a : SshAuth.AuthState)
    (hu : s.username = none ∨ s.username = some m.user) (hs : m.sig ≠ .wrong) :
    ∃ a0 : SshAuth.AuthState, a0 = (if s.username = none then SshAuth.initState cl a else a) ∧
      ((Verified e cl m ∧ authKnown e cl m s a =
        (if a0.successCount + 1 < a0.methodCount then .partialSuccess else .success,
          { s with username := some m.user, authenticated := if a0.successCount + 1 < a0.methodCount then s.authenticated else true },
          { a0 with successMethods := m.method :: a0.successMethods, successCount := a0.successCount + 1 })) ∨
       (¬ Verified e cl m ∧ (authKnown e cl m s a = (.denied, { s with username := some m.user }, a0) ∨
         (m.method = .publickey ∧ m.sig = .absent ∧ authKnown e cl m s a = (.pkOk, { s with username := some m.user }, a0))))) := by
  refine ⟨_, rfl, ?_⟩
  by_cases hv : Verified e cl m
  · refine .inl ⟨hv, ?_⟩
    have ht := (SshAuth.tryMethod_ok e cl m hs).mpr hv
    rcases hu with hu | hu
    · simp only [authKnown, hu, ht, ↓reduceIte]
      split <;> simp_all
    · simp only [authKnown, hu, ht, reduceCtorEq, ↓reduceIte, ne_eq, not_true_eq_false]
      split <;> (cases s; simp_all)
  · refine .inr ⟨hv, ?_⟩
    have hn : tryMethod e m.user cl m ≠ some .ok := fun h => hv ((SshAuth.tryMethod_ok e cl m hs).mp h)
    cases ht : tryMethod e m.user cl m with
    | none =>
      rcases hu with hu | hu
      · exact .inl (by simp [authKnown, hu, ht])
      · exact .inl (by cases s; simp_all [authKnown])
    | some r =>
      cases r with
      | ok => exact absurd ht hn
      | fail =>
        rcases hu with hu | hu
        · exact .inl (by simp [authKnown, hu, ht])
        · exact .inl (by cases s; simp_all [authKnown])
      | replied =>
        by_cases hm : m.method = .publickey
        · refine .inr ⟨hm, ?_, ?_⟩
          · simp only [tryMethod, hm, Option.some.injEq] at ht
            unfold SshAuth.authPubkey at ht
            split at ht
            · cases ht
            · split at ht
              · cases ht
              · split at ht
                · assumption
                · cases ht
          · rcases hu with hu | hu
            · simp [authKnown, hu, ht, hm]
            · cases s; simp_all [authKnown]
        · rcases hu with hu | hu
          · exact .inl (by simp [authKnown, hu, ht, hm])
          · exact .inl (by cases s; simp_all [authKnown])

theorem auth_clientOf {e : Env} {lu : Bool} {so : SshAuth.Opts} {m : AuthMsg} {cl : Option Client} (h : ClientOf lu so m.user cl) (s : SshAuth.Sess)
    (a : SshAuth.AuthState) : auth e lu so m s a = authKnown e cl m s a := by
  unfold ClientOf at h
  cases lu with
  | false => simp at h; simp [auth, h]
  | true =>
    simp at h
    obtain ⟨c, rfl, hc⟩ := h
    simp only [auth, ↓reduceIte]
    rw [(SshAuth.find_userIs so m.user c).mpr hc]

/-- A request of a user whose client is found. -/
theorem ask_cases (e : Env) {lu : Bool} {so : SshAuth.Opts} {m : AuthMsg} {c : Conn} {cl : Option Client} (hg : Going c m.user) (hs : m.sig ≠ .wrong)
    (h : ClientOf lu so m.user cl) :
    ∃ a0 : SshAuth.AuthState, a0 = (if c.main.username = none then SshAuth.initState cl c.authState else c.authState) ∧
      ((Verified e cl m ∧ ask e lu so m c =
        (if a0.successCount + 1 < a0.methodCount then .part else .success,
          { c with main := { c.main with username := some m.user, authenticated := if a0.successCount + 1 < a0.methodCount then false else true },
                   authState := { a0 with successMethods := m.method :: a0.successMethods, successCount := a0.successCount + 1 } })) ∨
       (¬ Verified e cl m ∧ (ask e lu so m c = (.denied, { c with main := { c.main with username := some m.user }, authState := a0 }) ∨
         (m.method = .publickey ∧ m.sig = .absent ∧
          ask e lu so m c = (.success, { c with main := { c.main with username := some m.user }, authState := a0 }))))) := by
  rw [ask_eq hg, auth_clientOf h]
  obtain ⟨a0, ha, hh⟩ := authKnown_cases e cl m c.main c.authState hg.us hs
  refine ⟨a0, ha, ?_⟩
  rcases hh with ⟨hv, hk⟩ | ⟨hv, hk | ⟨h1, h2, hk⟩⟩
  · refine .inl ⟨hv, ?_⟩
    rw [hk]
    by_cases hc : a0.successCount + 1 < a0.methodCount <;> simp [hc, res, hg.na]
  · exact .inr ⟨hv, .inl (by rw [hk]; rfl)⟩
  · exact .inr ⟨hv, .inr ⟨h1, h2, by rw [hk]; rfl⟩⟩

/-- What any request of the user leads to. -/
theorem ask_step (e : Env) (lu : Bool) (so : SshAuth.Opts) {m : AuthMsg} {c : Conn} (hg : Going c m.user) (hs : m.sig ≠ .wrong) :
    ((ask e lu so m c).1 = .success ∧ LetIn (ask e lu so m c).2 m.user ∧ ¬ (m.method = .publickey ∧ m.sig = .absent)) ∨
    (((ask e lu so m c).1 = .denied ∨ (ask e lu so m c).1 = .part) ∧ Going (ask e lu so m c).2 m.user) ∨
    ((ask e lu so m c).1 = .success ∧ m.method = .publickey ∧ m.sig = .absent ∧ Going (ask e lu so m c).2 m.user) := by
  by_cases hx : ∃ cl, ClientOf lu so m.user cl
  · obtain ⟨cl, hcl⟩ := hx
    obtain ⟨a0, _, h⟩ := ask_cases e hg hs hcl
    rcases h with ⟨hv, hk⟩ | ⟨_, hk | ⟨h1, h2, hk⟩⟩ <;> rw [hk]
    · by_cases hc : a0.successCount + 1 < a0.methodCount
      · exact .inr (.inl ⟨.inr (by simp [hc]), ⟨by simp [hc], hg.st, .inr rfl⟩⟩)
      · refine .inl ⟨by simp [hc], ⟨by simp [hc], rfl⟩, ?_⟩
        rintro ⟨h1, h2⟩
        rcases hv with ⟨hv, _⟩ | ⟨hv, _⟩ | ⟨_, _, hv⟩ | ⟨hv, _⟩ <;> simp_all
    · exact .inr (.inl ⟨.inl rfl, ⟨hg.na, hg.st, .inr rfl⟩⟩)
    · exact .inr (.inr ⟨rfl, h1, h2, ⟨hg.na, hg.st, .inr rfl⟩⟩)
  · have hl : lu = true := by
      cases lu with
      | true => rfl
      | false => exact absurd ⟨none, by simp [ClientOf]⟩ hx
    subst hl
    have hf : so.chain.flatten.find? (fun c => decide (c.name = m.user)) = none := by
      cases hf : so.chain.flatten.find? (fun c => decide (c.name = m.user)) with
      | none => rfl
      | some c => exact absurd ⟨some c, by simp only [ClientOf, ↓reduceIte]; exact ⟨c, rfl, (SshAuth.find_userIs so m.user c).mp hf⟩⟩ hx
    have : ask e true so m c = (.denied, c) := by
      rw [ask_eq hg]
      simp only [auth, ↓reduceIte]
      rw [hf]
      rfl
    rw [this]
    exact .inr (.inl ⟨.inl rfl, hg⟩)

/-- The state in which the key loop ends is that after its requests. -/
theorem keysLoop_serve (e : Env) (lu : Bool) (so : SshAuth.Opts) (me : Me) (kf : KeyFiles) (ks : List Key) (ret : Res) (c : Conn) :
    (keysLoop (server e lu so me) kf ks ret c).2.1 = serve e lu so me (keysLoop (server e lu so me) kf ks ret c).2.2 c := by
  induction ks generalizing ret c with
  | nil => rfl
  | cons k t ih =>
    simp only [keysLoop]
    split
    · exact ih ret c
    · split
      · rename_i s hs
        have : (ask e lu so (me.tryKey k) c).2 = s := by
          have : (server e lu so me).tryKey k c = ask e lu so (me.tryKey k) c := rfl
          rw [← this, hs]
        simp only [serve, sent, this]
        exact ih _ _
      · rename_i s hs
        have h1 : (ask e lu so (me.tryKey k) c).2 = s := by
          have : (server e lu so me).tryKey k c = ask e lu so (me.tryKey k) c := rfl
          rw [← this, hs]
        have hask : ∀ x : List ClientSsh.Ev, serve e lu so me (.tryKey k .success :: (if k.crypt = true then [ClientSsh.Ev.passphrase k] else []) ++ x) c = serve e lu so me x s := by
          intro x
          by_cases hc : k.crypt = true <;> simp [hc, serve, sent, h1]
        split
        · simp only
          rw [hask]
          exact ih _ _
        · split
          · rename_i s2 hs2
            have h2 : (ask e lu so (me.sign k) s).2 = s2 := by
              have : (server e lu so me).sign k s = ask e lu so (me.sign k) s := rfl
              rw [← this, hs2]
            simp only
            rw [hask]
            simp only [serve, sent, h2]
            exact ih _ _
          · rename_i x s2 _ hs2
            have h2 : (ask e lu so (me.sign k) s).2 = s2 := by
              have : (server e lu so me).sign k s = ask e lu so (me.sign k) s := rfl
              rw [← this, hs2]
            simp only
            rw [hask]
            simp only [serve, sent, h2]
      · rename_i x s _ _ hs
        have h1 : (ask e lu so (me.tryKey k) c).2 = s := by
          have : (server e lu so me).tryKey k c = ask e lu so (me.tryKey k) c := rfl
          rw [← this, hs]
        simp only [serve, sent, h1]

theorem attempt_serve (e : Env) (lu : Bool) (so : SshAuth.Opts) (me : Me) (co : ClientSsh.Opts) (kf : KeyFiles) (m : ClientSsh.Method) (ret : Res) (c : Conn)
    {r : Res} {c' : Conn} {evs : List ClientSsh.Ev} (h : attempt (server e lu so me) co kf m ret c = some (r, c', evs)) : c' = serve e lu so me evs c := by
  cases m with
  | pw =>
    simp only [attempt] at h
    split at h
    · cases h
    · cases h; rfl
  | kbd =>
    simp [attempt, server] at h
    obtain ⟨_, h2, h3⟩ := h
    subst h2 h3
    simp [serve, sent]
  | key =>
    simp only [attempt, Option.some.injEq] at h
    have := keysLoop_serve e lu so me kf co.keys ret c
    rw [h] at this
    exact this

/-- Trying the keys. -/
theorem keysLoop_agree (e : Env) (lu : Bool) (so : SshAuth.Opts) (me : Me) (kf : KeyFiles) (ks : List Key) (hk : PairsReadable ks kf) (ret : Res) (c : Conn)
    (hg : Going c me.user) (hr : ret = .denied ∨ ret = .part) :
    ((keysLoop (server e lu so me) kf ks ret c).1 = .success ∧ LetIn (keysLoop (server e lu so me) kf ks ret c).2.1 me.user) ∨
    (((keysLoop (server e lu so me) kf ks ret c).1 = .denied ∨ (keysLoop (server e lu so me) kf ks ret c).1 = .part) ∧
      Going (keysLoop (server e lu so me) kf ks ret c).2.1 me.user) := by
  induction ks generalizing ret c with
  | nil => exact .inr ⟨hr, hg⟩
  | cons k t ih =>
    have iht := ih (fun x hx => hk x (List.mem_cons_of_mem _ hx))
    by_cases hp : kf.pub k = .ok
    · have hpr := hk k (by simp) hp
      have ht := ask_step e lu so (m := me.tryKey k) hg (by simp [Me.tryKey])
      have hte : (server e lu so me).tryKey k c = ask e lu so (me.tryKey k) c := rfl
      cases hx : ask e lu so (me.tryKey k) c with
      | mk x s =>
        rw [hx] at ht
        rcases ht with ⟨_, _, h3⟩ | ⟨h1, h2⟩ | ⟨h1, _, _, h2⟩
        · exact absurd ⟨rfl, rfl⟩ h3
        · simp only at h1 h2
          rcases h1 with rfl | rfl
          · simp only [keysLoop, ne_eq, hp, not_true_eq_false, ↓reduceIte, hte, hx]
            exact iht _ s h2 (.inl rfl)
          · simp only [keysLoop, ne_eq, hp, not_true_eq_false, ↓reduceIte, hte, hx]
            exact .inr ⟨.inr trivial, h2⟩
        · simp only at h1 h2
          subst h1
          have hs := ask_step e lu so (m := me.sign k) (c := s) h2 (by simp [Me.sign])
          have hse : (server e lu so me).sign k s = ask e lu so (me.sign k) s := rfl
          cases hy : ask e lu so (me.sign k) s with
          | mk y s2 =>
            rw [hy] at hs
            rcases hs with ⟨h1, h3, _⟩ | ⟨h1, h3⟩ | ⟨_, _, h3, _⟩
            · simp only at h1 h3
              subst h1
              simp only [keysLoop, ne_eq, hp, not_true_eq_false, ↓reduceIte, hte, hx, hpr, hse, hy]
              exact .inl ⟨trivial, h3⟩
            · simp only at h1 h3
              rcases h1 with rfl | rfl
              · simp only [keysLoop, ne_eq, hp, not_true_eq_false, ↓reduceIte, hte, hx, hpr, hse, hy]
                exact iht _ s2 h3 (.inl rfl)
              · simp only [keysLoop, ne_eq, hp, not_true_eq_false, ↓reduceIte, hte, hx, hpr, hse, hy]
                exact .inr ⟨.inr trivial, h3⟩
            · cases h3
    · simp only [keysLoop, ne_eq, hp, not_false_eq_true, ↓reduceIte]
      exact iht ret c hg hr

theorem attempt_agree (e : Env) (lu : Bool) (so : SshAuth.Opts) (me : Me) (co : ClientSsh.Opts) (kf : KeyFiles) (hk : PairsReadable co.keys kf)
    (m : ClientSsh.Method) (ret : Res) (c : Conn) (hg : Going c me.user) (hr : ret = .denied ∨ ret = .part)
    {r : Res} {c' : Conn} {evs : List ClientSsh.Ev} (h : attempt (server e lu so me) co kf m ret c = some (r, c', evs)) :
    (r = .success ∧ LetIn c' me.user) ∨ ((r = .denied ∨ r = .part) ∧ Going c' me.user) := by
  have plain : ∀ q : AuthMsg, q.user = me.user → q.sig ≠ .wrong → q.method ≠ .publickey →
      ((ask e lu so q c).1 = .success ∧ LetIn (ask e lu so q c).2 me.user) ∨ (((ask e lu so q c).1 = .denied ∨ (ask e lu so q c).1 = .part) ∧ Going (ask e lu so q c).2 me.user) := by
    intro q hq hs hm
    rw [← hq] at hg ⊢
    rcases ask_step e lu so hg hs with ⟨h1, h2, _⟩ | h | ⟨_, h1, _⟩
    · exact .inl ⟨h1, h2⟩
    · exact .inr h
    · exact absurd h1 hm
  cases m with
  | pw =>
    simp only [attempt] at h
    split at h
    · cases h
    · rename_i p _
      cases h
      exact plain (me.password p) rfl (by simp [Me.password]) (by simp [Me.password])
  | kbd =>
    simp [attempt, server] at h
    obtain ⟨rfl, rfl, _⟩ := h
    exact plain me.kbd rfl (by simp [Me.kbd]) (by simp [Me.kbd])
  | key =>
    simp only [attempt, Option.some.injEq] at h
    have := keysLoop_agree e lu so me kf co.keys hk ret c hg hr
    rw [h] at this
    exact this

theorem authLoop_agree (e : Env) (lu : Bool) (so : SshAuth.Opts) (me : Me) (co : ClientSsh.Opts) (kf : KeyFiles) (hk : PairsReadable co.keys kf)
    (l : Methods) (ret : Res) (c : Conn) : Going c me.user → (ret = .denied ∨ ret = .part) →
    ((authLoop (server e lu so me) co kf l ret c).1 = .ok ∧ LetIn (serve e lu so me (authLoop (server e lu so me) co kf l ret c).2 c) me.user) ∨
    ((authLoop (server e lu so me) co kf l ret c).1 = .fail ∧ Going (serve e lu so me (authLoop (server e lu so me) co kf l ret c).2 c) me.user) := by
  refine authLoop_ind (server e lu so me) co kf (P := fun l ret c => Going c me.user → (ret = .denied ∨ ret = .part) →
    ((authLoop (server e lu so me) co kf l ret c).1 = .ok ∧ LetIn (serve e lu so me (authLoop (server e lu so me) co kf l ret c).2 c) me.user) ∨
    ((authLoop (server e lu so me) co kf l ret c).1 = .fail ∧ Going (serve e lu so me (authLoop (server e lu so me) co kf l ret c).2 c) me.user)) ?_ l ret c
  intro l ret c ih hg hr
  cases hc : choose co.pref l with
  | none => rw [authLoop_none hc]; exact .inr ⟨rfl, hg⟩
  | some m =>
    cases ha : attempt (server e lu so me) co kf m ret c with
    | none => rw [authLoop_some hc, ha]; exact .inr ⟨rfl, hg⟩
    | some x =>
      obtain ⟨r, c', evs⟩ := x
      have hv := attempt_serve e lu so me co kf m ret c ha
      rcases attempt_agree e lu so me co kf hk m ret c hg hr ha with ⟨rfl, hl⟩ | ⟨hd, hl⟩
      · rw [authLoop_some hc, ha]
        exact .inl ⟨rfl, by simpa [← hv] using hl⟩
      · have := ih m r c' evs hc ha hd hl hd
        rcases authLoop_step hc ha with ⟨_, he⟩ | ⟨he, _⟩ | ⟨he, _⟩ | ⟨he, _⟩
        · rw [he]
          simp only [serve_append, ← hv]
          exact this
        · rw [he] at hd; rcases hd with h | h <;> cases h
        · rcases he with he | he <;> rw [he] at hd <;> rcases hd with h | h <;> cases h
        · rw [he] at hd; rcases hd with h | h <;> cases h

/-- A request that is right: counted as one more method passed, or the last one. -/
structure Step (c : Conn) (r : Res) (c' : Conn) (user : List Char) : Prop where
  more : c.authState.successCount + 1 < c.authState.methodCount → r = .part ∧ Going c' user ∧ c'.main.username = some user ∧
    c'.authState.successCount = c.authState.successCount + 1 ∧ c'.authState.methodCount = c.authState.methodCount
  last : ¬ c.authState.successCount + 1 < c.authState.methodCount → r = .success ∧ LetIn c' user

theorem ask_right (e : Env) {lu : Bool} {so : SshAuth.Opts} {m : AuthMsg} {c : Conn} {cl : Option Client} (hg : Going c m.user) (hu : c.main.username = some m.user)
    (hs : m.sig ≠ .wrong) (h : ClientOf lu so m.user cl) (hv : Verified e cl m) : Step c (ask e lu so m c).1 (ask e lu so m c).2 m.user := by
  obtain ⟨a0, ha, hh⟩ := ask_cases e hg hs h
  simp only [hu, reduceCtorEq, ↓reduceIte] at ha
  subst ha
  rcases hh with ⟨_, hk⟩ | ⟨hv', _⟩
  · rw [hk]
    constructor
    · intro hc
      simp only [hc, ↓reduceIte]
      exact ⟨trivial, ⟨rfl, hg.st, .inr rfl⟩, trivial, trivial, trivial⟩
    · intro hc
      simp only [hc, ↓reduceIte]
      exact ⟨trivial, rfl, rfl⟩
  · exact absurd hv hv'

theorem ask_wrong (e : Env) {lu : Bool} {so : SshAuth.Opts} {m : AuthMsg} {c : Conn} {cl : Option Client} (hg : Going c m.user) (hu : c.main.username = some m.user)
    (hs : m.sig ≠ .wrong) (h : ClientOf lu so m.user cl) (hv : ¬ Verified e cl m) :
    ask e lu so m c = (.denied, c) ∨ (m.method = .publickey ∧ m.sig = .absent ∧ ask e lu so m c = (.success, c)) := by
  obtain ⟨a0, ha, hh⟩ := ask_cases e hg hs h
  simp only [hu, reduceCtorEq, ↓reduceIte] at ha
  subst ha
  have hc : ({ c with main := { c.main with username := some m.user }, authState := c.authState } : Conn) = c := by
    rcases c with ⟨⟨_, _, _, _, u⟩, _, _, _⟩
    simp only at hu
    subst hu
    rfl
  rcases hh with ⟨hv', _⟩ | ⟨_, hk | ⟨h1, h2, hk⟩⟩
  · exact absurd hv' hv
  · exact .inl (by rw [hk, hc])
  · exact .inr ⟨h1, h2, by rw [hk, hc]⟩

/-- The server accepts the use of an authorized key. -/
theorem ask_try {e : Env} {lu : Bool} {so : SshAuth.Opts} {me : Me} {k : Key} {c : Conn} {cl : Option Client} (hg : Going c me.user)
    (hu : c.main.username = some me.user) (h : ClientOf lu so me.user cl) (hk : SshAuth.AuthorizedKey e me.user cl (me.pubKey k)) :
    ask e lu so (me.tryKey k) c = (.success, c) := by
  have hv : ¬ Verified e cl (me.tryKey k) := by
    rintro (⟨hv, _⟩ | ⟨hv, _⟩ | ⟨_, _, hv⟩ | ⟨hv, _⟩) <;> cases hv
  rcases ask_wrong e (m := me.tryKey k) hg hu (by simp [Me.tryKey]) h hv with hd | ⟨_, _, hd⟩
  · exfalso
    have ht : SshAuth.authPubkey e me.user cl (me.tryKey k) = .replied := by
      obtain ⟨ks, h1, h2⟩ := (SshAuth.authorized_iff e me.user cl _).mp hk
      unfold SshAuth.authPubkey
      rw [h1]
      have h3 : SshAuth.compareKey (me.tryKey k).key ks = true := (SshAuth.compareKey_iff _ _).mpr h2
      simp only [h3]; simp [Me.tryKey]
    have := congrArg Prod.fst hd
    rw [ask_eq (m := me.tryKey k) hg, auth_clientOf (m := me.tryKey k) h] at this
    simp only [authKnown, hu] at this
    simp only [Me.tryKey, ne_eq, not_true_eq_false, ↓reduceIte, tryMethod] at this
    simp only [Me.tryKey] at ht
    rw [ht] at this
    simp [res] at this
  · exact hd

/-- A readable authorized key is found. -/
theorem keysLoop_right (e : Env) (lu : Bool) (so : SshAuth.Opts) (me : Me) (kf : KeyFiles) (ks : List Key) (ret : Res) (c : Conn) (cl : Option Client)
    (hg : Going c me.user) (hu : c.main.username = some me.user) (h : ClientOf lu so me.user cl)
    (hk : ∃ k ∈ ks, kf.pub k = .ok ∧ kf.priv k k.crypt = .ok ∧ me.privKey k = me.pubKey k ∧ SshAuth.AuthorizedKey e me.user cl (me.pubKey k)) :
    Step c (keysLoop (server e lu so me) kf ks ret c).1 (keysLoop (server e lu so me) kf ks ret c).2.1 me.user := by
  induction ks generalizing ret with
  | nil => obtain ⟨k, hk, _⟩ := hk; simp at hk
  | cons k t ih =>
    have hte : (server e lu so me).tryKey k c = ask e lu so (me.tryKey k) c := rfl
    have hse : (server e lu so me).sign k c = ask e lu so (me.sign k) c := rfl
    by_cases hgood : kf.pub k = .ok ∧ kf.priv k k.crypt = .ok ∧ me.privKey k = me.pubKey k ∧ SshAuth.AuthorizedKey e me.user cl (me.pubKey k)
    · obtain ⟨h1, h2, h3, h4⟩ := hgood
      have hv : Verified e cl (me.sign k) := .inr (.inr (.inl ⟨rfl, by simpa [Me.sign, h3] using h4, rfl⟩))
      have hst := ask_right e (m := me.sign k) hg hu (by simp [Me.sign]) h hv
      simp only [keysLoop, ne_eq, h1, not_true_eq_false, ↓reduceIte, hte, ask_try hg hu h h4, h2, hse]
      cases hy : ask e lu so (me.sign k) c with
      | mk y s2 =>
        rw [hy] at hst
        cases y with
        | denied =>
          by_cases hc : c.authState.successCount + 1 < c.authState.methodCount
          · have := (hst.more hc).1; cases this
          · have := (hst.last hc).1; cases this
        | _ => exact hst
    · have ht : ∃ k ∈ t, kf.pub k = .ok ∧ kf.priv k k.crypt = .ok ∧ me.privKey k = me.pubKey k ∧ SshAuth.AuthorizedKey e me.user cl (me.pubKey k) := by
        obtain ⟨x, hx, hx'⟩ := hk
        rcases List.mem_cons.mp hx with rfl | hx
        · exact absurd hx' hgood
        · exact ⟨x, hx, hx'⟩
      have iht := fun ret => ih ret ht
      by_cases hp : kf.pub k = .ok
      · have hnv : ¬ Verified e cl (me.tryKey k) := by
          rintro (⟨hv, _⟩ | ⟨hv, _⟩ | ⟨_, _, hv⟩ | ⟨hv, _⟩) <;> cases hv
        rcases ask_wrong e (m := me.tryKey k) hg hu (by simp [Me.tryKey]) h hnv with hd | ⟨_, _, hd⟩
        · simp only [keysLoop, ne_eq, hp, not_true_eq_false, ↓reduceIte, hte, hd]
          exact iht _
        · by_cases hpr : kf.priv k k.crypt = .ok
          · simp only [keysLoop, ne_eq, hp, not_true_eq_false, ↓reduceIte, hte, hd, hpr, hse]
            by_cases hv : Verified e cl (me.sign k)
            · have hst := ask_right e (m := me.sign k) hg hu (by simp [Me.sign]) h hv
              cases hy : ask e lu so (me.sign k) c with
              | mk y s2 =>
                rw [hy] at hst
                cases y with
                | denied =>
                  by_cases hc : c.authState.successCount + 1 < c.authState.methodCount
                  · have := (hst.more hc).1; cases this
                  · have := (hst.last hc).1; cases this
                | _ => exact hst
            · rcases ask_wrong e (m := me.sign k) hg hu (by simp [Me.sign]) h hv with hd | ⟨_, hd, _⟩
              · rw [hd]; exact iht _
              · cases hd
          · simp only [keysLoop, ne_eq, hp, not_true_eq_false, ↓reduceIte, hte, hd, hpr, not_false_eq_true]
            exact iht _
      · simp only [keysLoop, ne_eq, hp, not_false_eq_true, ↓reduceIte]
        exact iht _

/-- The right credential for a method. -/
def Right (e : Env) (me : Me) (co : ClientSsh.Opts) (kf : KeyFiles) (cl : Option Client) : ClientSsh.Method → Prop
  | .pw => GoodPassword e me co cl
  | .key => GoodKey e me co kf cl
  | .kbd => (∀ c, cl = some c → c.kbdint = true) ∧ SshAuth.AnswersMatch e me.user me.answers

theorem attempt_right (e : Env) (lu : Bool) (so : SshAuth.Opts) (me : Me) (co : ClientSsh.Opts) (kf : KeyFiles) (m : ClientSsh.Method) (ret : Res) (c : Conn)
    (cl : Option Client) (hg : Going c me.user) (hu : c.main.username = some me.user) (h : ClientOf lu so me.user cl) (hr : Right e me co kf cl m) :
    ∃ r c' evs, attempt (server e lu so me) co kf m ret c = some (r, c', evs) ∧ Step c r c' me.user := by
  cases m with
  | pw =>
    obtain ⟨p, w, hp, hw, hm⟩ := hr
    refine ⟨(ask e lu so (me.password p) c).1, (ask e lu so (me.password p) c).2, [.password p (ask e lu so (me.password p) c).1], by simp only [attempt, hp]; rfl, ?_⟩
    exact ask_right e (m := me.password p) hg hu (by simp [Me.password]) h (.inr (.inl ⟨rfl, w, hw, hm⟩))
  | kbd =>
    refine ⟨(ask e lu so me.kbd c).1, (ask e lu so me.kbd c).2, [.kbd (ask e lu so me.kbd c).1], by simp [attempt, server], ?_⟩
    exact ask_right e (m := me.kbd) hg hu (by simp [Me.kbd]) h (.inr (.inr (.inr ⟨rfl, hr.1, hr.2⟩)))
  | key =>
    refine ⟨_, _, _, rfl, ?_⟩
    exact keysLoop_right e lu so me kf co.keys ret c cl hg hu h hr

theorem usable_choose {pref : ClientSsh.Method → Int} {l : Methods} {m : ClientSsh.Method} (hm : l.has m = true) (hu : Usable pref m) : choose pref l ≠ none := by
  intro h
  obtain ⟨h1, h2⟩ := ClientSsh.choose_none h
  cases m with
  | kbd => simp [ClientSsh.Methods.has, h1] at hm
  | pw => have := h2 _ hm; simp only [Usable] at hu; omega
  | key => have := h2 _ hm; simp only [Usable] at hu; omega

theorem card_erase_eq {l : Methods} {m : ClientSsh.Method} (h : l.has m = true) : (l.erase m).card + 1 = l.card := by
  rcases l with ⟨a, b, c⟩
  cases m <;> simp only [ClientSsh.Methods.has] at h <;> subst h <;> simp [ClientSsh.Methods.card, ClientSsh.Methods.erase] <;> omega

theorem has_erase {l : Methods} {m x : ClientSsh.Method} : (l.erase m).has x = true ↔ l.has x = true ∧ x ≠ m := by
  rcases l with ⟨a, b, c⟩
  cases m <;> cases x <;> simp [ClientSsh.Methods.has, ClientSsh.Methods.erase]

theorem exists_has {l : Methods} (h : l.card ≠ 0) : ∃ m, l.has m = true := by
  rcases l with ⟨a, b, c⟩
  cases a
  · cases b
    · cases c
      · simp [ClientSsh.Methods.card] at h
      · exact ⟨.key, rfl⟩
    · exact ⟨.pw, rfl⟩
  · exact ⟨.kbd, rfl⟩

/-- All the methods that are left are passed. -/
theorem authLoop_right (e : Env) (lu : Bool) (so : SshAuth.Opts) (me : Me) (co : ClientSsh.Opts) (kf : KeyFiles) (cl : Option Client) (h : ClientOf lu so me.user cl)
    (l : Methods) (ret : Res) (c : Conn) : Going c me.user → c.main.username = some me.user → l.card ≠ 0 →
      c.authState.successCount + l.card = c.authState.methodCount → (∀ m, l.has m = true → Usable co.pref m ∧ Right e me co kf cl m) →
      (authLoop (server e lu so me) co kf l ret c).1 = .ok ∧ LetIn (serve e lu so me (authLoop (server e lu so me) co kf l ret c).2 c) me.user := by
  refine authLoop_ind (server e lu so me) co kf (P := fun l ret c => Going c me.user → c.main.username = some me.user → l.card ≠ 0 →
      c.authState.successCount + l.card = c.authState.methodCount → (∀ m, l.has m = true → Usable co.pref m ∧ Right e me co kf cl m) →
      (authLoop (server e lu so me) co kf l ret c).1 = .ok ∧ LetIn (serve e lu so me (authLoop (server e lu so me) co kf l ret c).2 c) me.user) ?_ l ret c
  intro l ret c ih hg hu hc hn hall
  obtain ⟨x, hx⟩ := exists_has hc
  cases hch : choose co.pref l with
  | none => exact absurd hch (usable_choose hx (hall x hx).1)
  | some m =>
    have hm := ClientSsh.choose_has hch
    obtain ⟨r, c', evs, ha, hst⟩ := attempt_right e lu so me co kf m ret c cl hg hu h (hall m hm).2
    have hv := attempt_serve e lu so me co kf m ret c ha
    have hce := card_erase_eq hm
    by_cases hlast : c.authState.successCount + 1 < c.authState.methodCount
    · obtain ⟨rfl, h1, h2, h3, h4⟩ := hst.more hlast
      have := ih m .part c' evs hch ha (.inr rfl) h1 h2 (by omega) (by omega) (fun y hy => hall y (has_erase.mp hy).1)
      rw [authLoop_some hch, ha]
      simp only [serve_append, ← hv]
      exact this
    · obtain ⟨rfl, h1⟩ := hst.last hlast
      rw [authLoop_some hch, ha]
      simp only [← hv]
      exact ⟨trivial, h1⟩

/-- A system user: what is not right changes nothing. -/
theorem keysLoop_one (e : Env) (lu : Bool) (so : SshAuth.Opts) (me : Me) (kf : KeyFiles) (ks : List Key) (ret : Res) (c : Conn) (cl : Option Client)
    (hg : Going c me.user) (hu : c.main.username = some me.user) (h : ClientOf lu so me.user cl) (h1 : c.authState.methodCount ≤ c.authState.successCount + 1)
    (hr : ret = .denied ∨ ret = .success) :
    (keysLoop (server e lu so me) kf ks ret c).1 = .success ∨ ((keysLoop (server e lu so me) kf ks ret c).1 = .denied ∧ (keysLoop (server e lu so me) kf ks ret c).2.1 = c) := by
  induction ks generalizing ret with
  | nil => rcases hr with rfl | rfl <;> simp [keysLoop]
  | cons k t ih =>
    have hte : (server e lu so me).tryKey k c = ask e lu so (me.tryKey k) c := rfl
    have hse : (server e lu so me).sign k c = ask e lu so (me.sign k) c := rfl
    by_cases hp : kf.pub k = .ok
    · have hnv : ¬ Verified e cl (me.tryKey k) := by
        rintro (⟨hv, _⟩ | ⟨hv, _⟩ | ⟨_, _, hv⟩ | ⟨hv, _⟩) <;> cases hv
      rcases ask_wrong e (m := me.tryKey k) hg hu (by simp [Me.tryKey]) h hnv with hd | ⟨_, _, hd⟩
      · simp only [keysLoop, ne_eq, hp, not_true_eq_false, ↓reduceIte, hte, hd]
        exact ih _ (.inl rfl)
      · by_cases hpr : kf.priv k k.crypt = .ok
        · simp only [keysLoop, ne_eq, hp, not_true_eq_false, ↓reduceIte, hte, hd, hpr, hse]
          by_cases hv : Verified e cl (me.sign k)
          · have hst := ask_right e (m := me.sign k) hg hu (by simp [Me.sign]) h hv
            have hl := (hst.last (by omega)).1
            cases hy : ask e lu so (me.sign k) c with
            | mk y s2 =>
              rw [hy] at hl
              simp only at hl
              subst hl
              exact .inl rfl
          · rcases ask_wrong e (m := me.sign k) hg hu (by simp [Me.sign]) h hv with hd | ⟨_, hd, _⟩
            · rw [hd]; exact ih _ (.inl rfl)
            · cases hd
        · simp only [keysLoop, ne_eq, hp, not_true_eq_false, ↓reduceIte, hte, hd, hpr, not_false_eq_true]
          exact ih _ (.inr rfl)
    · simp only [keysLoop, ne_eq, hp, not_false_eq_true, ↓reduceIte]
      exact ih _ hr

theorem attempt_one (e : Env) (lu : Bool) (so : SshAuth.Opts) (me : Me) (co : ClientSsh.Opts) (kf : KeyFiles) (m : ClientSsh.Method) (c : Conn)
    (cl : Option Client) (hg : Going c me.user) (hu : c.main.username = some me.user) (h : ClientOf lu so me.user cl)
    (h1 : c.authState.methodCount ≤ c.authState.successCount + 1) (hp : m = .pw → co.password ≠ none) :
    ∃ r c' evs, attempt (server e lu so me) co kf m .denied c = some (r, c', evs) ∧ (r = .success ∨ (r = .denied ∧ c' = c)) := by
  have plain : ∀ q : AuthMsg, q.user = me.user → q.sig ≠ .wrong → q.method ≠ .publickey →
      (ask e lu so q c).1 = .success ∨ ((ask e lu so q c).1 = .denied ∧ (ask e lu so q c).2 = c) := by
    intro q hq hs hm
    rw [← hq] at hg hu h
    by_cases hv : Verified e cl q
    · exact .inl ((ask_right e hg hu hs h hv).last (by omega)).1
    · rcases ask_wrong e hg hu hs h hv with hd | ⟨hd, _⟩
      · rw [hd]; exact .inr ⟨rfl, rfl⟩
      · exact absurd hd hm
  cases m with
  | pw =>
    cases hpw : co.password with
    | none => exact absurd hpw (hp rfl)
    | some p =>
      refine ⟨(ask e lu so (me.password p) c).1, (ask e lu so (me.password p) c).2, [.password p (ask e lu so (me.password p) c).1], by simp only [attempt, hpw]; rfl, ?_⟩
      exact plain (me.password p) rfl (by simp [Me.password]) (by simp [Me.password])
  | kbd =>
    refine ⟨(ask e lu so me.kbd c).1, (ask e lu so me.kbd c).2, [.kbd (ask e lu so me.kbd c).1], by simp [attempt, server], ?_⟩
    exact plain me.kbd rfl (by simp [Me.kbd]) (by simp [Me.kbd])
  | key => exact ⟨_, _, _, rfl, keysLoop_one e lu so me kf co.keys .denied c cl hg hu h h1 (.inl rfl)⟩

/-- One right credential is enough if one method is. -/
theorem authLoop_one (e : Env) (lu : Bool) (so : SshAuth.Opts) (me : Me) (co : ClientSsh.Opts) (kf : KeyFiles) (cl : Option Client) (h : ClientOf lu so me.user cl)
    (hp : 0 ≤ co.pref .pw → co.password ≠ none) (c : Conn) (hg : Going c me.user) (hu : c.main.username = some me.user)
    (h1 : c.authState.methodCount ≤ c.authState.successCount + 1) (x : ClientSsh.Method) (hux : Usable co.pref x) (hx : Right e me co kf cl x) (n : Nat) (l : Methods) :
    l.card = n → (l.has .pw = true → 0 ≤ co.pref .pw) → l.has x = true → (authLoop (server e lu so me) co kf l .denied c).1 = .ok := by
  induction n generalizing l with
  | zero =>
    intro hl _ hlx
    have := card_erase_eq hlx
    omega
  | succ n ih =>
    intro hl hlp hlx
    cases hch : choose co.pref l with
    | none => exact absurd hch (usable_choose hlx hux)
    | some m =>
      have hm := ClientSsh.choose_has hch
      obtain ⟨r, c', evs, ha, hst⟩ := attempt_one e lu so me co kf m c cl hg hu h h1 (by rintro rfl; exact hp (hlp hm))
      rcases hst with rfl | ⟨rfl, rfl⟩
      · rw [authLoop_some hch, ha]
      · have hne : x ≠ m := by
          rintro rfl
          obtain ⟨r, c'', evs', ha', hst⟩ := attempt_right e lu so me co kf x .denied c' cl hg hu h hx
          rw [ha] at ha'
          cases ha'
          have := (hst.last (by omega)).1
          cases this
        have hce := card_erase_eq hm
        have := ih (l.erase m) (by omega) (fun hq => hlp (has_erase.mp hq).1) (has_erase.mpr ⟨hlx, hne⟩)
        rw [authLoop_some hch, ha]
        exact this

end Verif.SshTalk
