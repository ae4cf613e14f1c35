import Verif.Model.Locks

/-!
# Lemmas about locks

Every function takes the locks it waits for without a timeout in the order of `rank` and releases all of them (`Ok`).
-/

namespace Verif.Locks

/-- The order of the locks. -/
def rank : Lk → Nat
  | .config => 0
  | .ps _ => 1
  | .rpc _ => 2
  | .bind => 3
  | .chS _ => 4
  | .chClients => 5
  | .client _ => 6
  | .fresh _ => 7
  | .cond _ => 8
  | .cert => 9
  | .ntf _ => 10
  | .msgs _ => 11
  | .io _ => 12
  | .psM _ => 13

/-- All locks held are before `l`. -/
def Above (l : Lk) (h : List (Lk × Bool)) : Prop := ∀ x ∈ h, rank x.1 < rank l

/-- `l` is not held. -/
def NotIn (l : Lk) (h : List (Lk × Bool)) : Prop := ∀ x ∈ h, x.1 ≠ l

/-- Who may be waited for with which locks. -/
def JoinOk : Tag → List (Lk × Bool) → Prop
  | .app, _ => False
  | .ch _, h => ∀ x ∈ h, rank x.1 < 1
  | .cert, h => h = []

/-- The lock for the data. -/
def guard : Obj → Lk
  | .cfg => .config
  | .clients => .chClients
  | .clientCfg i => .client i
  | .intervals => .cert

/-- The lock for the data is held, for writing if it is written. -/
def GuardOk (d : Obj) (w : Bool) (h : List (Lk × Bool)) : Prop := (guard d, true) ∈ h ∨ (w = false ∧ (guard d, false) ∈ h)

/-- Locks are waited for in their order, the first of which is `low`, all of them are released, and data in `S` is used with its lock. -/
def Ok (S : Obj → Prop) (low : Nat) (jn : Bool) : List (Lk × Bool) → Prog → Prop
  | h, .done => h = []
  | h, .rd l k => low ≤ rank l ∧ Above l h ∧ Ok S low jn ((l, false) :: h) k
  | h, .wr l k => low ≤ rank l ∧ Above l h ∧ Ok S low jn ((l, true) :: h) k
  | h, .un l k => (∃ x ∈ h, x.1 = l) ∧ Ok S low jn (drop l h) k
  | h, .try l a b => Ok S low jn ((l, true) :: h) a ∧ Ok S low jn h b
  | h, .acc w d k => (S d → GuardOk d w h) ∧ Ok S low jn h k
  | h, .join t k => jn = true ∧ JoinOk t h ∧ Ok S low jn h k
  | h, .or a b => Ok S low jn h a ∧ Ok S low jn h b

theorem Above.notIn {l h} (ha : Above l h) : NotIn l h := fun x hx he => by
  have := ha x hx; rw [he] at this; omega

theorem drop_cons {l : Lk} {b h} (hn : NotIn l h) : drop l ((l, b) :: h) = h := by
  simp only [drop]
  rw [List.filter_cons_of_neg (by simp)]
  exact List.filter_eq_self.2 fun x hx => by simpa using hn x hx

variable {S : Obj → Prop} {low : Nat} {jn : Bool} {h : List (Lk × Bool)} {k k' : Prog}

theorem ok_un {l b} (hn : NotIn l h) (hk : Ok S low jn h k) : Ok S low jn ((l, b) :: h) (.un l k) := by
  refine ⟨⟨_, List.mem_cons_self, rfl⟩, ?_⟩
  rw [drop_cons hn]; exact hk

/-- Taking a mutex, doing something, releasing it. -/
theorem ok_wr_un {l} (hl : low ≤ rank l) (ha : Above l h) (hk : Ok S low jn h k) : Ok S low jn h (.wr l (.un l k)) :=
  ⟨hl, ha, ok_un ha.notIn hk⟩

theorem ok_try_un {l} (ha : NotIn l h) (hk : Ok S low jn h k) (hk' : Ok S low jn h k') : Ok S low jn h (.try l (.un l k) k') :=
  ⟨ok_un ha hk, hk'⟩

theorem ok_msgIo {s} (hl : low ≤ 12) (ha : Above (.io s) h) (hk : Ok S low jn h k) : Ok S low jn h (msgIo s k) :=
  ⟨ok_wr_un hl ha hk, ok_try_un ha.notIn hk hk⟩

theorem ok_ntf {s} (hl : low ≤ 10) (ha : Above (.ntf s) h) (hk : Ok S low jn h k) : Ok S low jn h (ntfStatus s k) := ok_wr_un hl ha hk

theorem ok_psLock {p} (hl : low ≤ 13) (ha : Above (.psM p) h) (hok : Ok S low jn ((.ps p, true) :: h) k) (hf : Ok S low jn h k') :
    Ok S low jn h (psLock p k k') := by
  have ha' : Above (.psM p) ((.ps p, true) :: h) := by
    intro x hx
    rcases List.mem_cons.1 hx with rfl | hx
    · simp [rank]
    · exact ha x hx
  exact ⟨hl, ha, ok_un ha.notIn hf, ok_un ha.notIn ⟨ok_wr_un hl ha' hok, ok_wr_un hl ha hf⟩⟩

theorem ok_psUnlock {p} (hl : low ≤ 13) (ha : Above (.psM p) h) (hn : NotIn (.ps p) h) (hk : Ok S low jn h k) :
    Ok S low jn ((.ps p, true) :: h) (psUnlock p k) := by
  refine ⟨hl, ?_, ⟨_, List.mem_cons_of_mem _ List.mem_cons_self, rfl⟩, ?_⟩
  · intro x hx
    rcases List.mem_cons.1 hx with rfl | hx
    · simp [rank]
    · exact ha x hx
  · have : drop (.ps p) ((.psM p, true) :: (.ps p, true) :: h) = (.psM p, true) :: h := by
      have h1 := drop_cons (b := true) hn
      simp only [drop] at h1 ⊢
      rw [List.filter_cons_of_pos (by simp), h1]
    rw [this]
    exact ok_un ha.notIn hk

/-- The part of `sessionFree` after the RPC lock. -/
def freeTail (s : Nat) (chl : Option Lk) (k : Prog) : Prog :=
  match chl with
  | some l => .wr l (.or (.un l (.wr l (.un l (.or (.try (.io s) (.un (.io s) k) k) k)))) (.un l (.or (.try (.io s) (.un (.io s) k) k) k)))
  | none => .or (.try (.io s) (.un (.io s) k) k) k

theorem ok_freeTail {s : Nat} {chl : Option Lk} (hc : ∀ l, chl = some l → low ≤ rank l ∧ Above l h) (hi : NotIn (.io s) h)
    (hk : Ok S low jn h k) : Ok S low jn h (freeTail s chl k) := by
  have h1 : Ok S low jn h (.or (.try (.io s) (.un (.io s) k) k) k) := ⟨ok_try_un hi hk hk, hk⟩
  cases chl with
  | none => exact h1
  | some l =>
    obtain ⟨h2, h3⟩ := hc l rfl
    exact ⟨h2, h3, ok_un h3.notIn (ok_wr_un h2 h3 h1), ok_un h3.notIn h1⟩

theorem sessionFree_eq (s : Nat) (chl : Option Lk) (k : Prog) :
    sessionFree s chl k = .or k (.try (.rpc s) (freeTail s chl (.un (.rpc s) k)) (.or k (freeTail s chl k))) := by
  cases chl <;> rfl

theorem ok_sessionFree {s : Nat} {chl : Option Lk}
    (hc : ∀ l, chl = some l → low ≤ rank l ∧ 2 < rank l ∧ Above l h) (hr : NotIn (.rpc s) h) (hi : NotIn (.io s) h)
    (hk : Ok S low jn h k) : Ok S low jn h (sessionFree s chl k) := by
  rw [sessionFree_eq]
  refine ⟨hk, ok_freeTail ?_ ?_ (ok_un hr hk), hk, ok_freeTail (fun l hl => ⟨(hc l hl).1, (hc l hl).2.2⟩) hi hk⟩
  · intro l hl
    obtain ⟨h1, h2, h3⟩ := hc l hl
    refine ⟨h1, fun x hx => ?_⟩
    rcases List.mem_cons.1 hx with rfl | hx
    · exact h2
    · exact h3 x hx
  · intro x hx
    rcases List.mem_cons.1 hx with rfl | hx
    · simp
    · exact hi x hx

/-- Simplifies conditions on concrete lists of locks. -/
local macro "lk" : tactic => `(tactic| simp [Above, NotIn, rank, GuardOk, guard])

theorem ok_clientLock {i : Nat} (hl : low ≤ 5) (ha : ∀ x ∈ h, rank x.1 < 5)
    (hk : Ok S low jn ((.client i, true) :: (.chClients, false) :: h) k) (hk' : Ok S low jn h k') :
    Ok S low jn h (clientLock i k k') := by
  have h1 : Above .chClients h := ha
  refine ⟨hl, h1, fun _ => by lk, ⟨by simp [rank]; omega, fun x hx => ?_, hk⟩, ok_un h1.notIn hk'⟩
  rcases List.mem_cons.1 hx with rfl | hx
  · simp [rank]
  · exact Nat.lt_trans (ha x hx) (by simp [rank])

theorem ok_clientUnlock {i : Nat} (ha : ∀ x ∈ h, rank x.1 < 5) (hk : Ok S low jn h k) :
    Ok S low jn ((.client i, true) :: (.chClients, false) :: h) (clientUnlock i k) := by
  have h1 : Above .chClients h := ha
  refine ok_un ?_ (ok_un h1.notIn hk)
  intro x hx
  rcases List.mem_cons.1 hx with rfl | hx
  · simp
  · intro he; have := ha x hx; simp [he, rank] at this

/-! ## Configuration -/

theorem ok_destroyClient {i : Nat} {r : Bool} (hk : Ok S 0 true [(.config, true)] k) :
    Ok S 0 true [(.config, true)] (destroyClient i r k) := by
  refine ok_wr_un (Nat.zero_le _) (by lk) ?_
  cases r
  · exact hk
  · exact ⟨rfl, by simp [JoinOk, rank], hk⟩

theorem ok_destroyClients (hk : Ok S 0 true [(.config, true)] k) :
    ∀ is, Ok S 0 true [(.config, true)] (destroyClients is k)
  | [] => hk
  | (_, _) :: is => ok_destroyClient (ok_destroyClients hk is)

theorem ok_eachClient {w : Bool} (hl : low ≤ 6) (ha : ∀ x ∈ h, rank x.1 < 6) (hk : Ok S low jn h k) :
    ∀ is, Ok S low jn h (eachClient w is k)
  | [] => hk
  | i :: is => by
    have h1 : Above (.client i) h := ha
    exact ⟨hl, h1, fun _ => by lk, ok_un h1.notIn (ok_eachClient hl ha hk is)⟩

theorem ok_edit (hk : Ok S 0 true [(.config, true)] k) : ∀ e, Ok S 0 true [(.config, true)] (edit e k)
  | .listen => ⟨fun _ => by lk, hk⟩
  | .client i => ok_clientLock (Nat.zero_le _) (by lk) ⟨fun _ => by lk, ok_clientUnlock (by lk) hk⟩ hk
  | .create => ⟨Nat.zero_le _, by lk, fun _ => by lk, ok_un (by lk) hk⟩
  | .remove i r => ⟨Nat.zero_le _, by lk, fun _ => by lk, ok_un (by lk) hk, ok_un (by lk) (ok_destroyClient hk)⟩
  | .removeAll is => ⟨Nat.zero_le _, by lk, fun _ => by lk, ok_un (by lk) (ok_destroyClients hk is)⟩
  | .delRefs is => ⟨fun _ => by lk, Nat.zero_le _, by lk, fun _ => by lk, ok_eachClient (Nat.zero_le _) (by lk) (ok_un (by lk) hk) is⟩
  | .checkRefs is => ⟨fun _ => by lk, hk, Nat.zero_le _, by lk, fun _ => by lk, ok_eachClient (Nat.zero_le _) (by lk) (ok_un (by lk) hk) is⟩
  | .interval => ⟨Nat.zero_le _, by lk, fun _ => by lk, ok_un (by lk) hk⟩

theorem ok_edits (hk : Ok S 0 true [(.config, true)] k) (hk' : Ok S 0 true [(.config, true)] k') :
    ∀ es, Ok S 0 true [(.config, true)] (edits es k k')
  | [] => hk
  | e :: es => ok_edit (k := .or _ _) ⟨ok_edits hk hk' es, hk'⟩ e

theorem ok_setup (hk : Ok S 0 true [] k) (es : List Edit) : Ok S 0 true [] (setup es k) :=
  ⟨Nat.zero_le _, by lk, ok_edits (ok_wr_un (Nat.zero_le _) (by lk) (ok_un (by lk) hk)) (ok_un (by lk) hk) es⟩

/-! ## Calls -/

theorem ok_free0 (hk : Ok S 0 true [] k) (s : Nat) (c : Bool) :
    Ok S 0 true [] (sessionFree s (if c = true then some (.chS s) else none) k) := by
  refine ok_sessionFree ?_ (by lk) (by lk) hk
  intro l hl
  cases c <;> simp at hl
  subst hl
  exact ⟨Nat.zero_le _, by simp [rank], by lk⟩

theorem ok_freeNone {h} (hk : Ok S low jn h k) (s : Nat) (hr : NotIn (.rpc s) h) (hi : NotIn (.io s) h) :
    Ok S low jn h (sessionFree s none k) :=
  ok_sessionFree (fun _ hl => nomatch hl) hr hi hk

theorem ok_accept (hk : Ok S 0 true [] k) (s : Nat) : Ok S 0 true [] (accept s k) := by
  have hf : Ok S 0 true [] (sessionFree s none k) := ok_freeNone hk s (by lk) (by lk)
  refine ⟨Nat.zero_le _, by lk, fun _ => by lk, ok_un (by lk) hk, Nat.zero_le _, by lk, fun _ => by lk,
    ok_un (k := .or _ _) (by lk) ⟨ok_un (by lk) hf, fun _ => by lk, ok_un (by lk) hf, ok_un (by lk) ?_⟩⟩
  exact ok_msgIo (Nat.zero_le _) (by lk) (ok_msgIo (Nat.zero_le _) (by lk) ⟨hk, hf⟩)

theorem ok_pollLoop {p : Nat} {some' : Nat → Prog} (hn : Ok S 0 true [(.ps p, true)] k)
    (hs : ∀ s, Ok S 0 true [(.rpc s, true), (.ps p, true)] (some' s)) :
    ∀ ss, Ok S 0 true [(.ps p, true)] (pollLoop ss k some')
  | [] => hn
  | s :: ss => by
    have ih := ok_pollLoop hn hs ss
    have h1 : Ok S 0 true [(.rpc s, true), (.ps p, true)] (.or (some' s) (.un (.rpc s) (.or k (pollLoop ss k some')))) :=
      ⟨hs s, ok_un (by lk) ⟨hn, ih⟩⟩
    exact ⟨ok_ntf (Nat.zero_le _) (by lk) ⟨h1, ok_try_un (by lk) h1 h1⟩, hn, ih⟩

theorem ok_psUnlockRpc {p s : Nat} (hk : Ok S 0 true [(.rpc s, true)] k) :
    Ok S 0 true [(.rpc s, true), (.ps p, true)] (psUnlock p k) := by
  refine ⟨Nat.zero_le _, by lk, ⟨(.ps p, true), by simp, rfl⟩, ?_⟩
  have : drop (.ps p) [(.psM p, true), (.rpc s, true), (.ps p, true)] = [(.psM p, true), (.rpc s, true)] := by simp [drop]
  rw [this]
  exact ok_un (by lk) hk

theorem ok_psPoll (hk : Ok S 0 true [] k) (p : Nat) (ss : List Nat) : Ok S 0 true [] (psPoll p ss k) := by
  refine ok_psLock (Nat.zero_le _) (by lk) (ok_pollLoop (ok_psUnlock (Nat.zero_le _) (by lk) (by lk) hk) ?_ ss) hk
  intro s
  have h1 : Ok S 0 true [(.rpc s, true)] (.un (.rpc s) k) := ok_un (by lk) hk
  exact ok_psUnlockRpc (ok_msgIo (Nat.zero_le _) (by lk) ⟨h1, ok_msgIo (Nat.zero_le _) (by lk) h1⟩)

theorem ok_freeAll {p : Nat} (hk : Ok S 0 true [(.ps p, true)] k) : ∀ ss, Ok S 0 true [(.ps p, true)] (freeAll ss k)
  | [] => hk
  | (s, c) :: ss => by
    refine ok_sessionFree ?_ (by lk) (by lk) (ok_freeAll hk ss)
    intro l hl
    cases c <;> simp at hl
    subst hl
    exact ⟨Nat.zero_le _, by simp [rank], by lk⟩

theorem ok_psUse (hk : Ok S 0 true [] k) (p : Nat) : Ok S 0 true [] (psUse p k) :=
  ok_psLock (Nat.zero_le _) (by lk) (ok_psUnlock (Nat.zero_le _) (by lk) (by lk) hk) hk

theorem ok_channelFree (hk : Ok S 0 true [] k) (s n : Nat) (r : Bool) : Ok S 0 true [] (channelFree s n r k) := by
  have h0 : Ok S 0 true [] (.try (.io s) (.un (.io s) k) k) := ok_try_un (by lk) hk hk
  have h1 : Ok S 0 true [] (if r = true then msgIo s (msgIo s (msgIo s (.try (.io s) (.un (.io s) k) k))) else .try (.io s) (.un (.io s) k) k) := by
    cases r
    · exact h0
    · exact ok_msgIo (Nat.zero_le _) (by lk) (ok_msgIo (Nat.zero_le _) (by lk) (ok_msgIo (Nat.zero_le _) (by lk) h0))
  exact ⟨hk, ok_un (by lk) h1, hk, h1⟩

theorem ok_channelRpcs (hk : Ok S 0 true [] k) (s n : Nat) : ∀ rpcs, Ok S 0 true [] (channelRpcs s n rpcs k)
  | 0 => hk
  | rpcs + 1 =>
    ⟨hk, ok_msgIo (Nat.zero_le _) (by lk) ⟨⟨ok_msgIo (Nat.zero_le _) (by lk) (ok_un (by lk) (ok_channelRpcs hk s n rpcs)), hk⟩, hk⟩⟩

theorem ok_openedChannel (hk : Ok S 0 true [] k) (s n rpcs : Nat) : Ok S 0 true [] (connectChannel s n true rpcs k) := by
  refine ⟨Nat.zero_le _, by lk, ok_un (k := .or _ _) (by lk) ⟨ok_channelFree hk s n false, ?_⟩⟩
  exact ok_msgIo (Nat.zero_le _) (by lk) (ok_msgIo (Nat.zero_le _) (by lk)
    ⟨ok_channelFree hk s n false, ok_channelRpcs (k := .or _ _) ⟨hk, ok_channelFree hk s n true⟩ s n rpcs⟩)

/-- Calls that use data in `S` with its lock. -/
def CallOk (S : Obj → Prop) : Call → Prop
  | .isEndpt i => ¬S (.clientCfg i)
  | .endptCount => ¬S .cfg
  | _ => True

theorem ok_call (hk : Ok S 0 true [] k) : ∀ c : Call, CallOk S c → Ok S 0 true [] (c.prog k)
  | .setup es, _ => ok_setup hk es
  | .setOne, _ => ⟨Nat.zero_le _, by lk, fun _ => by lk, ok_un (by lk) hk⟩
  | .accept s, _ => ok_accept hk s
  | .isClient, _ => ⟨Nat.zero_le _, by lk, fun _ => by lk, ok_un (by lk) hk⟩
  | .isEndpt i, hc => ⟨Nat.zero_le _, by lk, fun _ => by lk, ok_un (by lk) hk, fun h => absurd h hc, ok_un (by lk) hk⟩
  | .endptCount, hc => ⟨fun h => absurd h hc, hk⟩
  | .dispatch i, _ => ok_clientLock (Nat.zero_le _) (by lk) ⟨fun _ => by lk, ok_clientUnlock (by lk) hk⟩ hk
  | .certStart, _ => ok_wr_un (Nat.zero_le _) (by lk) hk
  | .certStop, _ => ⟨Nat.zero_le _, by lk, ok_un (by lk) hk, ok_un (by lk) ⟨⟨rfl, rfl, hk⟩, hk⟩⟩
  | .sessionFree s c, _ => ok_free0 hk s c
  | .ntfStatus s, _ => ok_ntf (Nat.zero_le _) (by lk) hk
  | .psPoll p ss, _ => ok_psPoll hk p ss
  | .psClear p ss, _ => ok_psLock (Nat.zero_le _) (by lk) (ok_freeAll (ok_psUnlock (Nat.zero_le _) (by lk) (by lk) hk) ss) hk
  | .psUse p, _ => ok_psUse hk p
  | .acceptChannel p s, _ =>
    ok_psLock (Nat.zero_le _) (by lk) (ok_psUnlock (Nat.zero_le _) (by lk) (by lk)
      ⟨hk, ok_msgIo (Nat.zero_le _) (by lk) (ok_msgIo (Nat.zero_le _) (by lk) hk)⟩) hk
  | .msgIo s, _ => ok_msgIo (Nat.zero_le _) (by lk) hk
  | .recvMsg s, _ => by
    have h1 : Ok S 0 true [(.msgs s, true)] (.or (.un (.msgs s) k) (msgIo s (.un (.msgs s) k))) :=
      ⟨ok_un (by lk) hk, ok_msgIo (Nat.zero_le _) (by lk) (ok_un (by lk) hk)⟩
    exact ⟨⟨Nat.zero_le _, by lk, h1⟩, h1, hk⟩
  | .clientFree s, _ => by
    have h1 : Ok S 0 true [] (msgIo s (msgIo s (msgIo s (.or (.try (.io s) (.un (.io s) k) k) k)))) :=
      ok_msgIo (Nat.zero_le _) (by lk) (ok_msgIo (Nat.zero_le _) (by lk) (ok_msgIo (Nat.zero_le _) (by lk) ⟨ok_try_un (by lk) hk hk, hk⟩))
    exact ⟨hk, ok_un (by lk) h1, hk, h1⟩
  | .openedChannel s n rpcs, _ => ok_openedChannel hk s n rpcs

theorem ok_calls : ∀ cs, (∀ c ∈ cs, CallOk S c) → Ok S 0 true [] (calls cs)
  | [], _ => rfl
  | c :: cs, h => ok_call (ok_calls cs fun x hx => h x (List.mem_cons_of_mem _ hx)) c (h c List.mem_cons_self)

/-! ## Threads of Call Home clients -/

theorem ok_isRunning {i : Nat} (hl : low ≤ 8) (ha : Above (.cond i) h) (hk : Ok S low jn h k) (hk' : Ok S low jn h k') :
    Ok S low jn h (isRunning i k k') := ok_wr_un hl ha ⟨hk, hk'⟩

theorem ok_runningWait {i : Nat} (hk : Ok S 1 false [] k) (hk' : Ok S 1 false [] k') : ∀ n, Ok S 1 false [] (runningWait i n k k')
  | 0 => ok_wr_un (by simp [rank]) (by lk) ⟨hk, hk'⟩
  | n + 1 => ok_wr_un (by simp [rank]) (by lk) (ok_runningWait hk hk' n)

theorem ok_endptLock {i : Nat} (hk : Ok S 1 false [(.client i, true), (.chClients, false)] k) (hk' : Ok S 1 false [] k') :
    ∀ n, Ok S 1 false [] (endptLock i n k k')
  | 0 => ok_clientLock (by omega) (by lk) ⟨fun _ => by lk, hk⟩ hk'
  | n + 1 => ok_clientLock (by omega) (by lk) ⟨fun _ => by lk, ok_clientUnlock (by lk) (ok_endptLock hk hk' n)⟩ hk'

theorem ok_connect {i s : Nat} (hS : ¬S .cfg) (hk : Ok S 1 false [(.client i, true), (.chClients, false)] k)
    (hk' : Ok S 1 false [(.client i, true), (.chClients, false)] k') :
    Ok S 1 false [(.client i, true), (.chClients, false)] (connect i s k k') := by
  have hf : Ok S 1 false [(.client i, true), (.chClients, false)] (sessionFree s (some (.fresh s)) k') := by
    refine ok_sessionFree ?_ (by lk) (by lk) hk'
    intro l hl
    cases hl
    exact ⟨by simp [rank], by simp [rank], by lk⟩
  exact ⟨fun _ => by lk, hk', fun h => absurd h hS, hf, ok_msgIo (by omega) (by lk) (ok_msgIo (by omega) (by lk) ⟨hk, hf⟩)⟩

theorem ok_sessLoop {i s : Nat} (hk : Ok S 1 false [(.chS s, true)] k) : ∀ n, Ok S 1 false [(.chS s, true)] (sessLoop i s n k)
  | 0 => hk
  | n + 1 => by
    refine ok_un (by lk) ⟨by simp [rank], by lk, hk, ?_⟩
    exact ok_clientLock (by omega) (by lk) ⟨fun _ => by lk, ok_ntf (by omega) (by lk) (ok_clientUnlock (by lk) (ok_sessLoop hk n))⟩ hk

theorem ok_newSession {s : Nat} (hk : Ok S 1 false [(.chS s, true)] k) : ∀ p, Ok S 1 false [(.chS s, true)] (newSession p k)
  | none => hk
  | some p => ok_psLock (by omega) (by lk) (ok_psUnlock (by omega) (by lk) (by lk) hk) hk

theorem ok_sessWait {i s n : Nat} {p : Option Nat} (hk : Ok S 1 false [] k) (hk' : Ok S 1 false [] k') :
    Ok S 1 false [] (sessWait i s p n k k') := by
  refine ⟨by simp [rank], by lk, ok_newSession (k := .or _ _) ⟨ok_un (by lk) ?_, ok_sessLoop (ok_un (k := .or _ _) (by lk) ⟨hk, hk'⟩) n⟩ p⟩
  refine ok_sessionFree ?_ (by lk) (by lk) hk
  intro l hl
  cases hl
  exact ⟨by simp [rank], by simp [rank], by lk⟩

theorem ok_chEnd (i : Nat) : Ok S 1 false [] (chEnd i) := ok_wr_un (by simp [rank]) (by lk) rfl

theorem ok_chLoop (hS : ¬S .cfg) (i : Nat) : ∀ rs, Ok S 1 false [(.client i, true), (.chClients, false)] (chLoop i rs)
  | [] => ok_isRunning (by omega) (by lk) (ok_clientUnlock (by lk) (ok_chEnd i)) (ok_clientUnlock (by lk) (ok_chEnd i))
  | r :: rs => by
    have ih := ok_chLoop hS i rs
    refine ok_isRunning (by omega) (by lk) (ok_connect hS (ok_clientUnlock (by lk) (ok_isRunning (by omega) (by lk) (ok_sessWait ?_ (ok_chEnd i)) (ok_chEnd i))) ?_) (ok_clientUnlock (by lk) (ok_chEnd i))
    · refine ok_isRunning (by omega) (by lk) (ok_endptLock (k := .acc _ _ (.or _ _)) ⟨fun _ => by lk, ih, ok_clientUnlock (by lk) (ok_runningWait (ok_endptLock ih (ok_chEnd i) _) (ok_chEnd i) _)⟩ (ok_chEnd i) _) (ok_chEnd i)
    · exact ok_clientUnlock (by lk) (ok_runningWait (ok_endptLock (k := .acc _ _ _) ⟨fun _ => by lk, ih⟩ (ok_chEnd i) _) (ok_chEnd i) _)

theorem ok_chThread (hS : ¬S .cfg) (i e : Nat) (rs : List Round) : Ok S 1 false [] (chThread i e rs) :=
  ok_endptLock (k := .acc false (.clientCfg i) (chLoop i rs)) ⟨fun _ => by lk, ok_chLoop hS i rs⟩ (ok_chEnd i) e

/-! ## The thread for certificates -/

theorem ok_datesGet (hS : ¬S .intervals) (is : List Nat) (hk : Ok S 0 false [] k) (hk' : Ok S 0 false [] k') : Ok S 0 false [] (datesGet is k k') :=
  ⟨fun h => absurd h hS, Nat.zero_le _, by lk, fun _ => by lk, ok_un (by lk) hk', Nat.zero_le _, by lk, fun _ => by lk,
    ok_eachClient (Nat.zero_le _) (by lk) (ok_un (k := .acc false .cfg _) (by lk) ⟨fun _ => by lk, ok_un (k := .or _ _) (by lk) ⟨hk, hk'⟩⟩) is⟩

theorem ok_certLoop (hS : ¬S .intervals) : ∀ rs, Ok S 0 false [] (certLoop rs)
  | [] => ok_wr_un (Nat.zero_le _) (by lk) rfl
  | r :: rs => by
    refine ok_wr_un (Nat.zero_le _) (by lk) ⟨rfl, ok_wr_un (Nat.zero_le _) (by lk) (ok_wr_un (Nat.zero_le _) (by lk) ?_)⟩
    cases r with
    | none => exact ⟨fun h => absurd h hS, ok_certLoop hS rs⟩
    | some is =>
      exact ok_wr_un (Nat.zero_le _) (by lk) ⟨rfl, Nat.zero_le _, by lk, fun _ => by lk, ok_un (by lk) (ok_datesGet hS is (ok_certLoop hS rs) rfl)⟩

theorem ok_certThread (hS : ¬S .intervals) (is rs) : Ok S 0 false [] (certThread is rs) :=
  ⟨Nat.zero_le _, by lk, fun _ => by lk, ok_un (by lk) (ok_datesGet hS is (ok_certLoop hS rs) rfl)⟩

/-! ## Runs -/

/-- The first lock a kind of thread may wait for. -/
def lowOf : Tag → Nat
  | .ch _ => 1
  | _ => 0

/-- A thread keeps to the order. -/
def ThOk (S : Obj → Prop) (th : Th) : Prop := Ok S (lowOf th.tag) (decide (th.tag = .app)) th.held th.prog

/-- No lock held for writing is held by another thread. -/
def Excl (st : St) : Prop :=
  ∀ (t u : Nat) (a b : Th), st[t]? = some a → st[u]? = some b → ∀ l m, (l, true) ∈ a.held → (l, m) ∈ b.held → t = u

/-- What holds in all states. -/
def Inv (S : Obj → Prop) (st : St) : Prop := (∀ th ∈ st, ThOk S th) ∧ Excl st

/-- Threads that use data in `S` with its lock. -/
def StartOk (S : Obj → Prop) : Start → Prop
  | .app cs => ∀ c ∈ cs, CallOk S c
  | .ch _ _ _ => ¬S .cfg
  | .cert _ _ => ¬S .intervals

theorem start_ok {x : Start} (hx : StartOk S x) : ThOk S x.th ∧ x.th.held = [] := by
  cases x with
  | app cs => exact ⟨ok_calls cs hx, rfl⟩
  | ch i e rs => exact ⟨ok_chThread hx i e rs, rfl⟩
  | cert is rs => exact ⟨ok_certThread hx is rs, rfl⟩

theorem start_inv {l : List Start} (hl : ∀ x ∈ l, StartOk S x) : Inv S (start l) := by
  have h1 : ∀ th ∈ start l, ThOk S th ∧ th.held = [] := by
    intro th hth
    obtain ⟨x, hx, rfl⟩ := List.mem_map.1 hth
    exact start_ok (hl x hx)
  refine ⟨fun th hth => (h1 th hth).1, ?_⟩
  intro t u a b ha hb l' m hm
  rw [(h1 a (List.mem_of_getElem? ha)).2] at hm
  simp at hm

theorem startOk_none (x : Start) : StartOk (fun _ => False) x := by
  cases x with
  | app cs => intro c _; cases c <;> simp [CallOk]
  | ch => exact id
  | cert => exact id

theorem canWr_iff {st : St} {l : Lk} : canWr st l = true ↔ ∀ th ∈ st, ∀ h ∈ th.held, h.1 ≠ l := by
  simp [canWr]

theorem canRd_iff {st : St} {l : Lk} : canRd st l = true ↔ ∀ th ∈ st, (l, true) ∉ th.held ∧ waitsToWrite th l = false := by
  simp [canRd]

theorem ended_iff {st : St} {t : Tag} : ended st t = true ↔ ∀ th ∈ st, th.tag = t → th.prog = .done := by
  simp [ended, Classical.or_iff_not_imp_left]

/-- Changing one thread to one that keeps to the order and whose locks are among those it had. -/
theorem inv_set {st : St} {t : Nat} {a a' : Th} (hi : Inv S st) (ha : st[t]? = some a) (hok : ThOk S a')
    (hh : ∀ x ∈ a'.held, x ∈ a.held ∨
      (x.2 = true ∧ ∀ th ∈ st, ∀ h ∈ th.held, h.1 ≠ x.1) ∨ (x.2 = false ∧ ∀ th ∈ st, (x.1, true) ∉ th.held)) :
    Inv S (st.set t a') := by
  have hlt : t < st.length := by
    rcases Nat.lt_or_ge t st.length with h | h
    · exact h
    · rw [List.getElem?_eq_none h] at ha; cases ha
  refine ⟨?_, ?_⟩
  · intro th hth
    rcases List.mem_or_eq_of_mem_set hth with h | h
    · exact hi.1 th h
    · exact h ▸ hok
  · intro u v x y hx hy l m hl hm
    rw [List.getElem?_set] at hx hy
    by_cases hu : t = u <;> by_cases hv : t = v
    · exact hu.symm.trans hv
    · exfalso
      simp only [hu, if_true] at hx
      rw [if_neg hv] at hy
      have hx' : a' = x := by
        subst hu; simpa [hlt] using hx
      subst hx'
      rcases hh _ hl with h | h | h
      · exact hv (hi.2 t v a y ha hy l m h hm)
      · exact h.2 y (List.mem_of_getElem? hy) _ hm rfl
      · exact absurd h.1 (by simp)
    · exfalso
      simp only [hv, if_true] at hy
      rw [if_neg hu] at hx
      have hy' : a' = y := by
        subst hv; simpa [hlt] using hy
      subst hy'
      rcases hh _ hm with h | h | h
      · exact hu (hi.2 u t x a hx ha l m hl h).symm
      · exact h.2 x (List.mem_of_getElem? hx) _ hl rfl
      · exact h.2 x (List.mem_of_getElem? hx) hl
    · rw [if_neg hu] at hx
      rw [if_neg hv] at hy
      exact hi.2 u v x y hx hy l m hl hm

theorem mem_drop {l : Lk} {h : List (Lk × Bool)} {x} (hx : x ∈ drop l h) : x ∈ h := (List.mem_filter.1 hx).1

theorem lock_step_inv {st st' : St} {t : Nat} {b : Bool} (hi : Inv S st) (hs : step st t b = some st') : Inv S st' := by
  unfold step at hs
  cases ha : st[t]? with
  | none => rw [ha] at hs; cases hs
  | some a =>
    rw [ha] at hs
    have hok : ThOk S a := hi.1 a (List.mem_of_getElem? ha)
    obtain ⟨tag, prog, arr, held⟩ := a
    cases prog with
    | done => cases hs
    | rd l k =>
      simp only at hs
      split at hs
      case isFalse => cases hs
      case isTrue hc =>
        cases hs
        refine inv_set hi ha hok.2.2 ?_
        intro x hx
        rcases List.mem_cons.1 hx with rfl | hx
        · exact .inr (.inr ⟨rfl, fun th hth => (canRd_iff.1 hc th hth).1⟩)
        · exact .inl hx
    | wr l k =>
      simp only at hs
      split at hs
      · cases hs
        exact inv_set hi ha hok fun x hx => .inl hx
      · split at hs
        case isFalse => cases hs
        case isTrue hc =>
          cases hs
          refine inv_set hi ha hok.2.2 ?_
          intro x hx
          rcases List.mem_cons.1 hx with rfl | hx
          · exact .inr (.inl ⟨rfl, canWr_iff.1 hc⟩)
          · exact .inl hx
    | un l k =>
      cases hs
      exact inv_set hi ha hok.2 fun x hx => .inl (mem_drop hx)
    | «try» l p q =>
      simp only at hs
      split at hs
      · cases hs
        exact inv_set hi ha hok.2 fun x hx => .inl hx
      · split at hs
        case isFalse => cases hs
        case isTrue hc =>
          cases hs
          refine inv_set hi ha hok.1 ?_
          intro x hx
          rcases List.mem_cons.1 hx with rfl | hx
          · exact .inr (.inl ⟨rfl, canWr_iff.1 hc⟩)
          · exact .inl hx
    | acc w d k =>
      cases hs
      exact inv_set hi ha hok.2 fun x hx => .inl hx
    | join w k =>
      simp only at hs
      split at hs
      case isFalse => cases hs
      case isTrue hc =>
        cases hs
        exact inv_set hi ha hok.2.2 fun x hx => .inl hx
    | or p q =>
      cases hs
      refine inv_set hi ha ?_ fun x hx => .inl hx
      cases b
      · exact hok.2
      · exact hok.1

theorem run_cons {st : St} {t b s} : run st ((t, b) :: s) = (step st t b).bind fun st' => run st' s := rfl

theorem lock_run_inv : ∀ {s : List (Nat × Bool)} {st st' : St}, Inv S st → run st s = some st' → Inv S st'
  | [], _, _, hi, h => by cases h; exact hi
  | (t, b) :: s, st, st', hi, h => by
    rw [run_cons] at h
    cases h1 : step st t b with
    | none => rw [h1] at h; cases h
    | some st1 =>
      rw [h1] at h
      exact lock_run_inv (lock_step_inv hi h1) h

theorem run_append : ∀ (s1 : List (Nat × Bool)) {s2} {st st1 st2 : St}, run st s1 = some st1 → run st1 s2 = some st2 → run st (s1 ++ s2) = some st2
  | [], _, _, _, _, h1, h2 => by cases h1; exact h2
  | (t, b) :: s, s2, st, st1, st2, h1, h2 => by
    rw [run_cons] at h1
    rw [List.cons_append, run_cons]
    cases h3 : step st t b with
    | none => rw [h3] at h1; cases h1
    | some st' =>
      rw [h3] at h1
      exact run_append s h1 h2

end Verif.Locks
