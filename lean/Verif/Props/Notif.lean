import Verif.Lemmas.NotifTurns

/-!
# Properties of notifications (C228-C232)
-/

namespace Verif.Props
open Verif.Hello (Text)
open Verif.Notif
open Verif.Notif.Spec
open Verif.ClientMsg (Cl)
open Verif.ClientMsg.Spec (Arr texts input)

/-! ## C228: objects -/

theorem findNotif_found : ∀ {pre post : List Node}, .opaq ∉ pre → findNotif (pre ++ .notif :: post) = some true
  | [], _, _ => rfl
  | .opaq :: _, _, h => absurd List.mem_cons_self h
  | .notif :: _, _, _ => rfl
  | .other :: pre, post, h => by
    rw [List.cons_append, findNotif]
    exact findNotif_found (fun hx => h (List.mem_cons_of_mem _ hx))

theorem findNotif_none : ∀ {ns : List Node}, (∀ n ∈ ns, n = .other) → findNotif ns = some false
  | [], _ => rfl
  | n :: ns, h => by
    rw [h n List.mem_cons_self, findNotif]
    exact findNotif_none (fun x hx => h x (List.mem_cons_of_mem _ hx))

theorem notifText_eq (t e : Text) : notifText t e = some (message t e) := by
  have h : notifText t e = some (c!"<notification xmlns=\"urn:ietf:params:xml:ns:netconf:notification:1.0\">" ++ c!"<eventTime>" ++ t ++ c!"</eventTime>" ++ e ++ c!"</notification>") := rfl
  rw [h, message]
  rfl

theorem send_eq {h : Heap} {s : Sess} {o : Obj} {tm : Nat} {t : Text} {e : Tree} (hs : s.server = true) (hn : 0 < s.subs) (ho : o.time = some tm)
    (ht : h.mem tm = some (.str t)) (he : h.mem o.ntf = some (.tree e)) : send h s (some o) = some (some (message t e.text)) := by
  have h1 : ¬ s.subs = 0 := by omega
  simp only [send, hs, h1, ho, ht, he, notifText_eq]
  simp

/-- C228: an object made of copies. Whatever the caller does with the event and the time it passed, every session with a subscription is sent the time and the
event as they were, and freeing the object frees exactly what creating it allocated. -/
theorem notif_copy_partial (h : Heap) (ev tm : Nat) (e : Tree) (t : Text) (pre post : List Node) (he : h.mem ev = some (.tree e)) (ht : h.mem tm = some (.str t))
    (hn : e.nodes = pre ++ .notif :: post) (ho : .opaq ∉ pre) :
    ∃ o h', new ⟨true, true, true⟩ h (some ev) (some tm) .dupAndFree = some (some o, h') ∧ (∀ a < h.next, h'.mem a = h.mem a) ∧
      ∀ h2 : Heap, (∀ a, h.next ≤ a → h2.mem a = h'.mem a) →
        (∀ s : Sess, s.server = true → 0 < s.subs → send h2 s (some o) = some (some (message t e.text))) ∧
        ∃ h3, free h2 o = some h3 ∧ ∀ a, h3.mem a = if h.next ≤ a ∧ a < h'.next then none else h2.mem a := by
  refine ⟨⟨some h.next, h.next + 1, true⟩, (h.alloc (.str t)).alloc (.tree e), ?_, ?_, ?_⟩
  · simp only [new, he, hn, findNotif_found ho, ht]
    simp [copies]
    simp [Heap.alloc]
  · intro a ha
    have h1 : ¬ a = h.next := by omega
    have h2 : ¬ a = h.next + 1 := by omega
    simp [Heap.alloc, h1, h2]
  · intro h2 hk
    have k1 : h2.mem h.next = some (.str t) := by rw [hk _ (by omega)]; simp [Heap.alloc]
    have k2 : h2.mem (h.next + 1) = some (.tree e) := by rw [hk _ (by omega)]; simp [Heap.alloc]
    refine ⟨fun s hs hsub => send_eq hs hsub rfl k1 k2, ?_⟩
    simp only [free, Heap.free, k2, if_true]
    simp only [show ¬ h.next = h.next + 1 by omega, if_false, k1]
    refine ⟨_, rfl, ?_⟩
    intro a
    have hx : ((h.alloc (.str t)).alloc (.tree e)).next = h.next + 2 := rfl
    rw [hx]
    by_cases h1 : a = h.next
    · subst h1; simp
    · by_cases h3 : a = h.next + 1
      · subst h3; simp
      · simp only [h1, h3, if_false]; rw [if_neg (by omega)]

/-- C228: an object of the given event and time, to be freed with it or not. While nobody frees or changes these, they are what is sent. Freeing the object frees
them exactly when this was asked for; creating it allocates nothing of them. -/
theorem notif_given_partial (m : Mem) (hm : m.obj = true) (h : Heap) (ev tm : Nat) (e : Tree) (t : Text) (pre post : List Node) (he : h.mem ev = some (.tree e))
    (ht : h.mem tm = some (.str t)) (hn : e.nodes = pre ++ .notif :: post) (ho : .opaq ∉ pre) (p : Param) (hp : p ≠ .dupAndFree) :
    ∃ o, new m h (some ev) (some tm) p = some (some o, h) ∧
      ∀ h2 : Heap, h2.mem ev = h.mem ev → h2.mem tm = h.mem tm →
        (∀ s : Sess, s.server = true → 0 < s.subs → send h2 s (some o) = some (some (message t e.text))) ∧
        ∃ h3, free h2 o = some h3 ∧ (p = .const → h3 = h2) ∧ (p = .free → ∀ a, h3.mem a = if a = ev ∨ a = tm then none else h2.mem a) := by
  refine ⟨⟨some tm, ev, p != .const⟩, ?_, ?_⟩
  · simp only [new, he, hn, findNotif_found ho, hm, hp]
    simp
  · intro h2 k1 k2
    rw [he] at k1
    rw [ht] at k2
    refine ⟨fun s hs hsub => send_eq hs hsub rfl k2 k1, ?_⟩
    cases p with
    | dupAndFree => exact absurd rfl hp
    | const => exact ⟨h2, rfl, fun _ => rfl, nofun⟩
    | free =>
      have hne : ¬ tm = ev := by rintro rfl; rw [he] at ht; cases ht
      have hb : (Param.free != .const) = true := rfl
      simp only [free, hb, Heap.free, k1, if_true, hne, if_false, k2]
      refine ⟨_, rfl, nofun, ?_⟩
      intro _ a
      simp only
      by_cases h1 : a = tm
      · simp [h1]
      · by_cases h3 : a = ev <;> simp [h1, h3]

/-- C228: no object is made, and nothing allocated, without an event or a time, of an event without a notification, or without memory for the object. -/
theorem notif_refused (m : Mem) (h : Heap) (p : Param) :
    (∀ tm, new m h none tm p = some (none, h)) ∧ (∀ ev, new m h ev none p = some (none, h)) ∧
    ∀ ev tm e, h.mem ev = some (.tree e) → ((∀ n ∈ e.nodes, n = .other) → new m h (some ev) (some tm) p = some (none, h)) ∧
      (∀ pre post, e.nodes = pre ++ .notif :: post → .opaq ∉ pre → m.obj = false → new m h (some ev) (some tm) p = some (none, h)) := by
  refine ⟨fun tm => by cases tm <;> rfl, fun ev => by cases ev <;> rfl, ?_⟩
  intro ev tm e he
  refine ⟨?_, ?_⟩
  · intro hn; simp only [new, he, findNotif_none hn]
  · intro pre post hn ho hm; simp only [new, he, hn, findNotif_found ho, hm, if_true]

/-- A time at address 0 and an event at address 1: a container with a notification. -/
def notifHeap (e : Tree) : Heap := ⟨fun a => if a = 0 then some (.str c!"2026-11-15T12:00:00Z") else if a = 1 then some (.tree e) else none, 2⟩

/-- An object of copies, sent after the caller has freed the event and the time. -/
example : ∃ o h' h1 h2, new ⟨true, true, true⟩ (notifHeap ⟨[.other, .notif, .other], c!"<e/>"⟩) (some 1) (some 0) .dupAndFree = some (some o, h') ∧
    h'.free 0 = some h1 ∧ h1.free 1 = some h2 ∧
    send h2 ⟨true, 1⟩ (some o) = some (some c!"<notification xmlns=\"urn:ietf:params:xml:ns:netconf:notification:1.0\"><eventTime>2026-11-15T12:00:00Z</eventTime><e/></notification>") ∧
    (free h2 o).map (fun h3 => (List.range 10).map h3.mem) = some (List.replicate 10 none) := by
  refine ⟨⟨some 2, 3, true⟩, _, _, _, rfl, rfl, rfl, ?_, ?_⟩
  · rfl
  · rfl

/-- C228 does not hold without memory for the copy of the event: the copy of the time is not freed, and there is no object to free it with. -/
theorem notif_copy_leak_false : ∃ h' : Heap, new ⟨true, true, false⟩ (notifHeap ⟨[.notif], c!"<e/>"⟩) (some 1) (some 0) .dupAndFree = some (none, h') ∧
    (notifHeap ⟨[.notif], c!"<e/>"⟩).mem 2 = none ∧ h'.mem 2 = some (.str c!"2026-11-15T12:00:00Z") :=
  ⟨_, rfl, rfl, rfl⟩

/-- C228 does not hold for an event with an opaque node before the notification: its schema is read, which is NULL. -/
theorem notif_opaque_false (m : Mem) (p : Param) : new m (notifHeap ⟨[.other, .opaq, .notif], c!"<e/>"⟩) (some 1) (some 0) p = none := rfl

/-- C228 does not hold without memory for the copy of the time: there is an object, but it cannot be sent. -/
theorem notif_no_time_false : ∃ (o : Obj) (h' : Heap), new ⟨true, false, true⟩ (notifHeap ⟨[.notif], c!"<e/>"⟩) (some 1) (some 0) .dupAndFree = some (some o, h') ∧
    send h' ⟨true, 1⟩ (some o) = some none ∧ o.time = none := ⟨_, _, rfl, rfl, rfl⟩

/-! ## C229: sending -/

theorem after_append (p t : Text) : after p (p ++ t) = some t := by
  induction p with
  | nil => rfl
  | cons a p ih => simp [after, ih]

theorem takeWhile_lt {t r : Text} (h : '<' ∉ t) : (t ++ '<' :: r).takeWhile (· ≠ '<') = t ∧ (t ++ '<' :: r).dropWhile (· ≠ '<') = '<' :: r := by
  induction t with
  | nil => simp
  | cons a t ih =>
    simp at h
    have := ih h.2
    have ha : a ≠ '<' := fun hx => h.1 hx.symm
    simp_all

/-- C229: a notification is written only to a session of a server with a subscription, whatever the object. -/
theorem notif_subscribers (h : Heap) (s : Sess) (o : Option Obj) (x : Text) (hx : send h s o = some (some x)) :
    s.server = true ∧ 0 < s.subs ∧ ∃ o', o = some o' := by
  simp only [send] at hx
  split at hx
  · cases hx
  · rename_i h1
    cases o with
    | none => cases hx
    | some o => exact ⟨by simpa using fun h => h1 (.inl h), by have := fun h => h1 (.inr h); omega, o, rfl⟩

/-- C229: a receiver reads the time of the object, followed by its event. Missing: times with markup. -/
theorem notif_time_partial (h : Heap) (s : Sess) (o : Obj) (tm : Nat) (t : Text) (e : Tree) (hs : s.server = true) (hsub : 0 < s.subs) (ho : o.time = some tm)
    (ht : h.mem tm = some (.str t)) (he : h.mem o.ntf = some (.tree e)) (h1 : '<' ∉ t) (h2 : '&' ∉ t) :
    ∃ x, send h s (some o) = some (some x) ∧ readTime x = some (t, e.text ++ c!"</notification>") := by
  refine ⟨_, send_eq hs hsub ho ht he, ?_⟩
  have k : message t e.text = c!"<notification xmlns=\"urn:ietf:params:xml:ns:netconf:notification:1.0\"><eventTime>" ++
      (t ++ (c!"</eventTime>" ++ (e.text ++ c!"</notification>"))) := by
    simp only [message, List.append_assoc]
  simp only [readTime, k, after_append]
  have k2 : c!"</eventTime>" ++ (e.text ++ c!"</notification>") = '<' :: (c!"/eventTime>" ++ (e.text ++ c!"</notification>")) := rfl
  obtain ⟨g1, g2⟩ := takeWhile_lt (r := c!"/eventTime>" ++ (e.text ++ c!"</notification>")) h1
  rw [k2, g1, g2, ← k2, after_append]
  simp [h2]

example : ∃ x, send (notifHeap ⟨[.notif], c!"<e/>"⟩) ⟨true, 2⟩ (some ⟨some 0, 1, false⟩) = some (some x) ∧ readTime x = some (c!"2026-11-15T12:00:00Z", c!"<e/></notification>") :=
  notif_time_partial _ _ _ 0 _ ⟨[.notif], c!"<e/>"⟩ rfl (by decide) rfl rfl rfl (by decide) (by decide)

/-- C229 does not hold for times with markup: they are written as they are. -/
theorem notif_time_false : ∃ t, '<' ∈ t ∧ ∃ h : Heap, ∃ x, h.mem 0 = some (.str t) ∧ send h ⟨true, 1⟩ (some ⟨some 0, 1, false⟩) = some (some x) ∧ readTime x = none :=
  ⟨c!"a<b", by decide, ⟨fun a => if a = 0 then some (.str c!"a<b") else if a = 1 then some (.tree ⟨[.notif], c!"<e/>"⟩) else none, 2⟩, _, rfl, rfl, rfl⟩

/-! ## C230: the receiving thread -/

/-- C230: whatever replies and notifications arrive, with silence between them, and whenever other threads receive replies: the callback of the thread is called with
the notifications that can be parsed, first those already buffered, in their order and each once, up to `notificationComplete`; the thread ends with
this one and not before; and it has called its callback with all of them after as many rounds as there are messages.
Missing: failures of the transport, messages with a namespace prefix or an unusual comment (`msg_type_false`). -/
theorem notif_thread_partial (parse : Text → Option Got) (ts : List Turn) (msgs : List (ClientMsg.Kind × Text)) (as : List Arr) (hs : Shaped as) (hf : .failure ∉ as) :
    ∃ calls on c' rest, turns parse ts ⟨msgs, as.map input⟩ = some (calls, on, c') ∧
      calls ++ rest = through (((msgs.filter (fun x => x.1 = .notif)).map (·.2) ++ texts .notif as).filterMap parse) ∧
      (on = false ↔ ∃ g ∈ calls, IsEnd g) ∧ (on = false → rest = []) ∧
      (msgs.length + as.length ≤ ts.count .notif → rest = []) := by
  obtain ⟨calls, on, c', rest, h1, h2, h3, h4, h5⟩ := turns_run parse ts ⟨msgs, as.map input⟩ as hs hf rfl
  refine ⟨calls, on, c', rest, h1, h2, h4, h3, ?_⟩
  intro h
  apply h5
  have : (ClientMsg.buffered .notif msgs).length ≤ msgs.length := by
    simp only [ClientMsg.buffered, List.length_map]
    exact List.length_filter_le _ _
  simp only
  omega

/-- C230: a thread with nothing buffered ends, without another call, when the transport has failed. -/
theorem notif_thread_broken (parse : Text → Option Got) (ts : List Turn) (msgs : List (ClientMsg.Kind × Text)) (wire : List ClientMsg.Input)
    (hm : ∀ x ∈ msgs, x.1 ≠ .notif) : ∃ c', turns parse (.notif :: ts) ⟨msgs, .failure :: wire⟩ = some ([], false, c') := by
  have h : ClientMsg.takeBuffered .notif msgs = none := by
    induction msgs with
    | nil => rfl
    | cons x l ih =>
      obtain ⟨k, t⟩ := x
      have := hm (k, t) List.mem_cons_self
      simp only [ClientMsg.takeBuffered]
      rw [if_neg (by simpa using this), ih (fun x hx => hm x (List.mem_cons_of_mem _ hx))]
      rfl
  refine ⟨⟨msgs, wire⟩, ?_⟩
  have : iter parse ⟨msgs, .failure :: wire⟩ = some (⟨none, false⟩, ⟨msgs, wire⟩) := by simp [iter, ClientMsg.recvMsg, h]
  rw [turns, this]
  rfl

/-- A buffered notification, another one read while waiting for a reply, then the end. -/
example : (turns (fun t => if t = c!"<notification>3" then some ⟨c!"notificationComplete", c!"nc-notifications", t⟩ else some ⟨c!"e", c!"m", t⟩)
    [.reply, .notif, .notif, .reply] ⟨[(.notif, c!"<notification>1")],
      [.msg c!"<notification>2", .idle, .msg c!"<notification>3", .msg c!"<notification>4"]⟩).map (fun r => (r.1.map (·.text), r.2.1)) =
    some ([c!"<notification>1", c!"<notification>2"], true) := by decide +kernel
example : (turns (fun t => if t = c!"<notification>3" then some ⟨c!"notificationComplete", c!"nc-notifications", t⟩ else some ⟨c!"e", c!"m", t⟩)
    [.reply, .notif, .notif, .notif, .notif, .notif] ⟨[(.notif, c!"<notification>1")],
      [.msg c!"<notification>2", .idle, .msg c!"<notification>3", .msg c!"<notification>4"]⟩).map (fun r => (r.1.map (·.text), r.2.1)) =
    some ([c!"<notification>1", c!"<notification>2", c!"<notification>3"], false) := by decide +kernel

/-! ## C231: threads and the end of the session -/

/-- C231: if `nc_session_free` does not run out of time, and no thread could not be made or dispatch calls do not overlap, then no thread ever uses the session
after it is freed, and its callback is not called then. Missing: callbacks that take too long, threads that cannot be made during another dispatch. -/
theorem notif_session_partial (as : List Act) (ht : .timeout ∉ as) (hc : (∀ i, .create i false ∉ as) ∨ Serial as) :
    run as Sys.init ≠ .ub ∧ ∀ p q s s', as = p ++ q → run p Sys.init = .ok s → run as Sys.init = .ok s' → s.free = .done →
      ∃ l, s'.log = s.log ++ l ∧ ∀ x ∈ l, ∃ i, x = .freed i := by
  have hok : Ok as Sys.init := by
    rcases hc with hc | hc
    · exact .inl ⟨hc, by simp [Sys.init], by simp [Sys.init]⟩
    · right
      intro p q s' he hr hx
      have := hc p q s' he hr _ hx
      simp at this
  refine ⟨(safe_run as Sys.init safe_init hok ht).1, ?_⟩
  intro p q s s' he h1 h2 hd
  subst he
  have hsafe : Safe s := by
    refine (safe_run p Sys.init safe_init ?_ (fun h => ht (List.mem_append_left _ h))).2 s h1
    rcases hok with hok | hok
    · exact .inl ⟨fun i hi => hok.1 i (List.mem_append_left _ hi), hok.2⟩
    · exact .inr (fun p' q' s1 he hr => hok p' (q' ++ q) s1 (by rw [he]; simp) hr)
  rw [run_append p q _ _ h1] at h2
  refine (run_inv (P := fun x => (x.free = .done ∧ x.pcs.countP Pc.counted = 0) ∧ ∃ l, x.log = s.log ++ l ∧ ∀ y ∈ l, ∃ i, y = Ev.freed i) ?_ q s s'
    ⟨⟨hd, hsafe.done hd⟩, [], by simp, by simp⟩ h2).2
  rintro x a x' ⟨⟨g1, g2⟩, l, g3, g4⟩ hst
  cases hst with
  | dispatch hf => rw [g1] at hf; cases hf
  | flag i hp => have := counted_of hp rfl; omega
  | create i ok hp => have := counted_of hp rfl; omega
  | uncount i hp => have := counted_of hp rfl; omega
  | reset i hp =>
    have := countP_go (f := Pc.counted) (q := .failed) hp
    simp [Pc.counted] at this
    exact ⟨⟨g1, by simp only [Sys.go]; simp only [g2] at this; simp [this]⟩, l, g3, g4⟩
  | check i hp hdn => exact absurd g1 hdn
  | receive i r p hp hdn hm => exact absurd g1 hdn
  | call i b hp hdn => exact absurd g1 hdn
  | leave i hp hdn => exact absurd g1 hdn
  | freeData i hp =>
    have := countP_go (f := Pc.counted) (q := .ended) hp
    simp [Pc.counted] at this
    refine ⟨⟨g1, by simp only [Sys.go]; simp only [g2] at this; simp [this]⟩, l ++ [.freed i], by simp [g3], ?_⟩
    intro y hy
    simp at hy
    rcases hy with hy | hy
    · exact g4 y hy
    · exact ⟨i, hy⟩
  | free hf hc hr => rw [g1] at hf; cases hf
  | freeNow hf hc hr => rw [g1] at hf; cases hf
  | allLeft hf hc => rw [g1] at hf; cases hf
  | timeout hf => rw [g1] at hf; cases hf

/-- C231: `nc_session_free` waits only for a bounded number of steps: once it was called, no thread makes more than five; as long as the session is not freed,
something can go on. -/
theorem notif_free_ends (p as : List Act) (s s' : Sys) (h : run p Sys.init = .ok s) (hf : s.free = .waiting) (hr : run as s = .ok s') :
    as.length ≤ 5 * s.pcs.length + 1 ∧ ((∀ a, a ≠ .timeout → step s' a = .no) → s'.free = .done) := by
  have hb := run_inv (P := Base) (fun _ _ _ h1 h2 => base_step h1 h2) p Sys.init s base_init h
  obtain ⟨h1, h2, h3⟩ := left_run as s s' hb (by simp [hf]) hr
  refine ⟨?_, ?_⟩
  · have := sum_le s.pcs
    simp only [Sys.left, hf] at h1
    omega
  · intro hn
    cases hs : s'.free with
    | done => rfl
    | no => exact absurd hs h2
    | waiting =>
      exfalso
      have hz : s'.count = 0 := by
        rw [h3.count, List.countP_eq_zero]
        intro x hx hcx
        obtain ⟨i, hi⟩ := List.getElem?_of_mem hx
        obtain ⟨a, ha, hst⟩ := can_go hi (not_inCall (h3.inCall h2) hi) (by rintro rfl; cases hcx) (by rintro rfl; cases hcx)
        exact hst (hn a ha)
      have := hn .allLeft (by simp)
      simp [step, hs, hz] at this

theorem idle_step {s s' : Sys} {a : Act} (hk : ∀ p ∈ s.pcs, p = .failed ∨ p.inCall = true) (hr : s.running = true → s.pcs.any Pc.inCall = true)
    (hb : Base s) (h : Step s a s') (ha : ∀ i, a ≠ .create i true) :
    (∀ p ∈ s'.pcs, p = .failed ∨ p.inCall = true) ∧ (s'.running = true → s'.pcs.any Pc.inCall = true) := by
  have no : ∀ {i : Nat} {p : Pc}, s.pcs[i]? = some p → p ≠ .failed → p.inCall = false → False := by
    intro i p hp h1 h2
    rcases hk p (mem_get hp) with h3 | h3
    · exact h1 h3
    · rw [h2] at h3; cases h3
  have set_in : ∀ {i : Nat} {p q : Pc}, s.pcs[i]? = some p → q.inCall = true →
      (∀ x ∈ s.pcs.set i q, x = .failed ∨ x.inCall = true) ∧ (s.pcs.set i q).any Pc.inCall = true := by
    intro i p q hp hq
    obtain ⟨hlt, _⟩ := List.getElem?_eq_some_iff.mp hp
    refine ⟨fun x hx => ?_, List.any_eq_true.mpr ⟨q, List.mem_set hlt q, hq⟩⟩
    rcases mem_go hx with rfl | hx
    · exact .inr hq
    · exact hk x hx
  have set_failed : ∀ {i : Nat}, ∀ x ∈ s.pcs.set i .failed, x = .failed ∨ x.inCall = true := by
    intro i x hx
    rcases mem_go hx with rfl | hx
    · exact .inl rfl
    · exact hk x hx
  cases h with
  | dispatch hf =>
    refine ⟨fun p hp => ?_, fun _ => by simp [Pc.inCall]⟩
    rcases List.mem_append.mp hp with hp | hp
    · exact hk p hp
    · rw [List.mem_singleton.mp hp]; exact .inr rfl
  | flag i hp => exact ⟨(set_in hp rfl).1, fun _ => (set_in hp rfl).2⟩
  | create i ok hp =>
    cases ok with
    | true => exact absurd rfl (ha i)
    | false => exact ⟨(set_in hp rfl).1, fun _ => (set_in hp rfl).2⟩
  | uncount i hp =>
    by_cases hc : s.count = 1
    · simp only [hc, if_true]
      exact ⟨(set_in hp rfl).1, fun _ => (set_in hp rfl).2⟩
    · simp only [hc, if_false]
      refine ⟨set_failed, fun _ => ?_⟩
      have h1 := countP_go (f := Pc.counted) (q := .failed) hp
      have h2 := counted_of hp rfl
      have h3 := hb.count
      simp [Pc.counted] at h1
      have h4 : 0 < (s.pcs.set i .failed).countP Pc.counted := by omega
      obtain ⟨x, hx, hxc⟩ := List.countP_pos_iff.mp h4
      rcases set_failed x hx with rfl | h5
      · cases hxc
      · exact List.any_eq_true.mpr ⟨x, hx, h5⟩
  | reset i hp => exact ⟨set_failed, fun h => by cases h⟩
  | check i hp hdn => exact (no hp (by simp) rfl).elim
  | receive i r p hp hdn hm => exact (no hp (by simp) rfl).elim
  | call i b hp hdn => exact (no hp (by simp) rfl).elim
  | leave i hp hdn => exact (no hp (by simp) rfl).elim
  | freeData i hp => exact (no hp (by simp) rfl).elim
  | free hf hc hn => exact ⟨hk, fun h => by cases h⟩
  | freeNow hf hc hn => exact ⟨hk, fun h => hr h⟩
  | allLeft hf hc => exact ⟨hk, fun h => hr h⟩
  | timeout hf => exact ⟨hk, fun h => hr h⟩

theorem idle_run : ∀ (p : List Act) (s s' : Sys), (∀ p ∈ s.pcs, p = .failed ∨ p.inCall = true) → (s.running = true → s.pcs.any Pc.inCall = true) → Base s →
    (∀ i, .create i true ∉ p) → run p s = .ok s' → (s'.running = true → s'.pcs.any Pc.inCall = true) := by
  intro p
  induction p with
  | nil => intro s s' _ h2 _ _ h; cases h; exact h2
  | cons a p ih =>
    intro s s' h1 h2 hb hc h
    rw [run_cons] at h
    cases hst : step s a with
    | no => rw [hst] at h; cases h
    | ub => rw [hst] at h; cases h
    | ok t =>
      rw [hst] at h
      have hs := step_ok hst
      obtain ⟨g1, g2⟩ := idle_step h1 h2 hb hs (fun i he => hc i (by rw [he]; exact List.mem_cons_self))
      exact ih t s' g1 g2 (base_step hb hs) (fun i hi => hc i (List.mem_cons_of_mem _ hi)) h

/-- C231: a session of which no dispatch made a thread is freed at once, without waiting. -/
theorem notif_free_at_once (p : List Act) (s : Sys) (h : run p Sys.init = .ok s) (hc : ∀ i, .create i true ∉ p) (hf : s.free = .no)
    (hi : s.pcs.any Pc.inCall = false) : ∃ s', step s .free = .ok s' ∧ s'.free = .done := by
  have hr := idle_run p _ s (by simp [Sys.init]) (by simp [Sys.init]) base_init hc h
  have hn : s.running = false := by
    cases hx : s.running with
    | false => rfl
    | true => rw [hr hx] at hi; cases hi
  exact ⟨{ s with free := .done }, by simp [step, hf, hi, hn], rfl⟩

/-- Two dispatches at the same time, both without a thread. -/
example : (match run [.dispatch, .flag 0, .dispatch, .create 0 false, .uncount 0, .flag 1, .create 1 false, .uncount 1, .reset 1, .free] Sys.init with
    | .ok s => some (s.free, s.pcs)
    | _ => none) = some (.done, [.failed, .failed]) := by decide +kernel

/-- Two threads; the second dispatch fails; the session is freed while a callback runs. -/
example : (match run [.dispatch, .flag 0, .create 0 true, .check 0, .dispatch, .flag 1, .create 1 false, .receive 0 .notif, .uncount 1, .free,
      .call 0 false, .check 0, .leave 0, .allLeft, .freeData 0] Sys.init with
    | .ok s => some (s.free, s.pcs, s.log)
    | _ => none) = some (.done, [.ended, .failed], [.call 0, .freed 0]) := by decide +kernel

/-- C231 does not hold when a callback takes longer than `nc_session_free` waits. -/
theorem notif_session_timeout_false : run [.dispatch, .flag 0, .create 0 true, .check 0, .receive 0 .notif, .free, .timeout, .call 0 false] Sys.init = .ub := by
  decide +kernel

/-- C231 does not hold when a thread cannot be made while another dispatch is under way: the flag of the other is reset, so that nobody waits for its thread. -/
theorem notif_session_refused_false : ∃ as, .timeout ∉ as ∧ run as Sys.init = .ub :=
  ⟨[.dispatch, .flag 0, .create 0 false, .uncount 0, .dispatch, .flag 1, .create 1 true, .check 1, .reset 0, .free, .receive 1 .notif], by decide, by decide +kernel⟩

/-! ## C232: the data of a dispatch -/

/-- C232: in every run, the data of a dispatch are freed at most once, its callback is not called with them afterwards, and data of a dispatch that failed are
left to the caller. -/
theorem notif_data (as : List Act) (s : Sys) (h : run as Sys.init = .ok s) (i : Nat) :
    s.log.count (.freed i) ≤ 1 ∧ (∀ p q, s.log = p ++ .freed i :: q → .call i ∉ q ∧ .freed i ∉ q) ∧
    (s.pcs[i]? = some .failed → .call i ∉ s.log ∧ .freed i ∉ s.log) ∧ (s.pcs[i]? = some .ended → .freed i ∈ s.log) := by
  obtain ⟨k, h1, h2⟩ := run_inv (P := fun x => ∀ i, Seen x i) (fun _ _ _ g1 g2 => seen_step g1 g2) as Sys.init s seen_init h i
  have hmem : ∀ x, Ev.of i x = true → (x ∈ s.log ↔ x ∈ s.log.filter (Ev.of i)) := by intro x hx; simp [hx]
  have hcount : s.log.count (.freed i) = (s.log.filter (Ev.of i)).count (.freed i) := by
    rw [List.count_filter (by simp [Ev.of])]
  have hc1 : s.log.count (.freed i) ≤ 1 := by
    rw [hcount, h1, List.count_append]
    have : (List.replicate k (Ev.call i)).count (.freed i) = 0 := by rw [List.count_replicate]; simp
    rw [this]
    split <;> simp
  refine ⟨hc1, ?_, ?_, ?_⟩
  · intro p q he
    have hnf : .freed i ∉ q := by
      intro hq
      have := List.count_pos_iff.2 hq
      rw [he, List.count_append, List.count_cons_self] at hc1
      omega
    refine ⟨?_, hnf⟩
    intro hq
    rw [he, List.filter_append, List.filter_cons_of_pos (by simp [Ev.of])] at h1
    have hq' : .call i ∈ q.filter (Ev.of i) := by simp [hq, Ev.of]
    generalize q.filter (Ev.of i) = q' at *
    generalize p.filter (Ev.of i) = p' at *
    obtain ⟨a, b, rfl⟩ := List.append_of_mem hq'
    have h5 : p' ++ Ev.freed i :: (a ++ Ev.call i :: b) = (p' ++ Ev.freed i :: a) ++ Ev.call i :: b := by simp
    rw [h5] at h1
    split at h1
    · have h6 := congrArg List.reverse h1
      simp only [List.reverse_append, List.reverse_cons, List.reverse_nil, List.nil_append, List.reverse_replicate, List.append_assoc, List.singleton_append] at h6
      generalize b.reverse = b' at h6
      cases b' with
      | nil => simp at h6
      | cons y b' =>
        simp only [List.cons_append, List.cons.injEq] at h6
        have : Ev.freed i ∈ List.replicate k (Ev.call i) := by rw [← h6.2]; simp
        simp [List.mem_replicate] at this
    · have : Ev.freed i ∈ List.replicate k (Ev.call i) ++ [] := by rw [← h1]; simp
      simp [List.mem_replicate] at this
  · intro hp
    have hk : k = 0 := by
      rcases h2 with h2 | ⟨p, h2, h3⟩
      · exact h2
      · rw [hp] at h2; cases h2; simp at h3
    rw [hmem _ (by simp [Ev.of]), hmem _ (by simp [Ev.of]), h1, hk]
    simp [hp]
  · intro hp
    rw [hmem _ (by simp [Ev.of]), h1]
    simp [hp]

/-- C232: when the session is freed and nothing can go on, the data of every dispatch that did not fail have been freed. -/
theorem notif_data_freed (as : List Act) (s : Sys) (h : run as Sys.init = .ok s) (hd : s.free = .done) (hn : ∀ a, step s a = .no) (i : Nat) (hi : i < s.pcs.length) :
    s.pcs[i]? = some .failed ∨ s.log.count (.freed i) = 1 := by
  have hb := run_inv (P := Base) (fun _ _ _ h1 h2 => base_step h1 h2) as Sys.init s base_init h
  obtain ⟨k1, -, -, k4⟩ := notif_data as s h i
  obtain ⟨p, hp⟩ : ∃ p, s.pcs[i]? = some p := ⟨s.pcs[i], by simp [hi]⟩
  by_cases h1 : p = .failed
  · left; rw [hp, h1]
  · right
    by_cases h2 : p = .ended
    · have := List.count_pos_iff.2 (k4 (by rw [hp, h2]))
      omega
    · obtain ⟨a, -, hst⟩ := can_go hp (not_inCall (hb.inCall (by simp [hd])) hp) h1 h2
      exact absurd (hn a) hst

/-- C232 says nothing about the order of this and the end of `nc_session_free`: it can return, so that the application may go on to free what its data refer to, before
the data are freed. -/
theorem notif_data_late_false : ∃ p s, run p Sys.init = .ok s ∧ .timeout ∉ p ∧ s.free = .done ∧ s.log = [] ∧ ∃ s', step s (.freeData 0) = .ok s' ∧ s'.log = [.freed 0] :=
  ⟨[.dispatch, .flag 0, .create 0 true, .free, .check 0, .leave 0, .allLeft], _, rfl, by decide, rfl, rfl, _, rfl, rfl⟩

end Verif.Props
