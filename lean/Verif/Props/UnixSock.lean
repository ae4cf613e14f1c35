import Verif.Lemmas.UnixSock

/-! # Properties of UNIX sockets -/

namespace Verif.Props
open Verif.UnixSock

/-- All calls granted; new files are 0o755 and belong to 0. -/
def unixEnv : Env := ⟨true, true, true, true, true, true, 493, 0, 0⟩

/-- No files and no sockets but 0, 1 and 2. -/
def unixWorld : World := ⟨fun _ => none, [0, 1, 2], [], 3⟩

theorem unixWorld_sane : Sane unixWorld :=
  ⟨by simp [unixWorld], by simp [unixWorld], fun p n f h => by cases h⟩

theorem unixEnv_granting : Granting unixEnv := ⟨rfl, rfl, rfl, rfl, rfl, rfl⟩

/-! ## C160: A UNIX endpoint listens at its path with its permissions -/

/-- A socket that was created listens at the path of the endpoint with the permissions asked for, and no other file is touched. The full statement
is for all paths that are accepted, that is, also for those of 107 bytes; it is false for these (`unix_listens_false`). -/
theorem unix_listens_partial (e : Env) (o : Opts) (w : World) (hw : Sane w) (hlen : o.address.length ≤ 106) (f : Nat)
    (h : (listenUnix e o w).sock = some f) :
    listensAt (listenUnix e o w).w o.address f ∧
    (∃ n, (listenUnix e o w).w.fs o.address = some n ∧ asked e o n) ∧
    (∀ q, q ≠ o.address → (listenUnix e o w).w.fs q = w.fs q) ∧
    (listenUnix e o w).w.fds = f :: w.fds := by
  obtain ⟨rfl, -, hd⟩ := (listenUnix_spec e o hw).2 f h
  rw [List.take_of_length_le hlen] at hd
  exact ⟨⟨by rw [hd.fds]; exact List.mem_cons_self, by rw [hd.lis]; exact List.mem_cons_self, _, hd.node, rfl⟩, ⟨_, hd.node, rfl, rfl, rfl⟩,
    hd.other, hd.fds⟩

example : listensAt (listenUnix unixEnv ⟨[47, 115], some 384, some 7, none⟩ unixWorld).w [47, 115] 3 :=
  (unix_listens_partial unixEnv ⟨[47, 115], some 384, some 7, none⟩ unixWorld unixWorld_sane (by decide) 3 rfl).1

/-- If all calls are granted, there is a socket for each path of at most 107 bytes, whatever file was there before. -/
theorem unix_listens_available (e : Env) (o : Opts) (w : World) (he : Granting e) (hlen : o.address.length ≤ 107) :
    (listenUnix e o w).sock = some w.next := by
  obtain ⟨h1, h2, h3, h4, h5, h6⟩ := he
  unfold listenUnix
  rw [if_neg (show ¬ sunPathSize - 1 < o.address.length from Nat.not_lt.2 hlen)]
  rw [if_neg (by simp [h1])]
  simp only
  have hnone : (unlink e (socket w) (snprintf (sunPathSize - 1) o.address)).fs (snprintf (sunPathSize - 1) o.address) = none := by
    unfold unlink
    rw [if_pos h2]
    exact upd_same _ _ _
  have hb : UnixSock.bind e (unlink e (socket w) (snprintf (sunPathSize - 1) o.address)) w.next (snprintf (sunPathSize - 1) o.address) =
      some { unlink e (socket w) (snprintf (sunPathSize - 1) o.address) with
        fs := upd (unlink e (socket w) (snprintf (sunPathSize - 1) o.address)).fs (snprintf (sunPathSize - 1) o.address)
          (some ⟨some w.next, e.mode, e.uid, e.gid⟩) } := by
    unfold UnixSock.bind
    rw [if_pos h3, hnone]
  rw [hb]
  simp only [listenBound, h4, h5, h6, Bool.not_true, Bool.and_false, Bool.false_eq_true, if_false]

example : (listenUnix unixEnv ⟨[47, 115], none, none, none⟩ { unixWorld with fs := fun _ => some ⟨none, 420, 1, 1⟩ }).sock = some 3 :=
  unix_listens_available _ _ _ unixEnv_granting (by decide)

/-- Longer paths are refused, and nothing is done. -/
theorem unix_too_long (e : Env) (o : Opts) (w : World) (hlen : 107 < o.address.length) : listenUnix e o w = ⟨none, w, []⟩ := by
  unfold listenUnix
  rw [if_pos (show sunPathSize - 1 < o.address.length from hlen)]

example : (listenUnix unixEnv ⟨List.replicate 108 1, none, none, none⟩ unixWorld).sock = none := by rw [unix_too_long _ _ _ (by simp)]

/-- The permissions are set before the first client can connect: whenever, in between the calls, the new socket can be reached at a path, the file
has the permissions asked for. -/
theorem unix_permissions_first (e : Env) (o : Opts) (w : World) (hw : Sane w) (v : World) (hv : v ∈ (listenUnix e o w).hist) (p : Path)
    (hl : listensAt v p w.next) : ∃ n, v.fs p = some n ∧ asked e o n := by
  have hnl : w.next ∉ w.lis := fun h => Nat.lt_irrefl _ (hw.2.1 _ h)
  have hcl : ∀ u : World, w.next ∉ (close u w.next).lis := fun u h => (mem_close_lis.1 h).2 rfl
  have hp2 : snprintf (sunPathSize - 1) o.address = o.address.take 106 := rfl
  unfold listenUnix at hv
  split at hv
  · cases hv
  · split at hv
    · cases hv
    · simp only [hp2] at hv
      have h1 : w.next ∉ (socket w).lis := hnl
      have h2 : w.next ∉ (unlink e (socket w) (o.address.take 106)).lis := by rw [unlink_lis]; exact hnl
      cases hb : UnixSock.bind e (unlink e (socket w) (o.address.take 106)) w.next (o.address.take 106) with
      | none =>
        simp only [hb, failClose, List.cons_append, List.nil_append, List.mem_cons, List.not_mem_nil, or_false] at hv
        rcases hv with rfl | rfl | rfl
        · exact absurd hl.2.1 h1
        · exact absurd hl.2.1 h2
        · exact absurd hl.2.1 (hcl _)
      | some w3 =>
        have hbd := bound_of hb
        simp only [hb] at hv
        have h3 : w.next ∉ w3.lis := by rw [hbd.lis]; exact hnl
        have h6 := hl.2.1
        unfold listenBound at hv
        split at hv
        · simp only [failClose, List.cons_append, List.nil_append, List.mem_cons, List.not_mem_nil, or_false] at hv
          rcases hv with rfl | rfl | rfl | rfl
          · exact absurd h6 h1
          · exact absurd h6 h2
          · exact absurd h6 h3
          · exact absurd h6 (hcl _)
        · rename_i hok1
          obtain ⟨a1, a2, a3, a4, a5⟩ := chmod_eq o.mode hbd.node hok1
          have h4 : w.next ∉ (chmod e w3 (o.address.take 106) o.mode).lis := by rw [a2]; exact h3
          simp only at hv
          split at hv
          · simp only [failClose, List.cons_append, List.nil_append, List.mem_cons, List.not_mem_nil, or_false] at hv
            rcases hv with rfl | rfl | rfl | rfl | rfl
            · exact absurd h6 h1
            · exact absurd h6 h2
            · exact absurd h6 h3
            · exact absurd h6 h4
            · exact absurd h6 (hcl _)
          · rename_i hok2
            obtain ⟨b1, b2, b3, b4, b5⟩ := chown_eq o.uid o.gid a4 hok2
            have h5 : w.next ∉ (chown e (chmod e w3 (o.address.take 106) o.mode) (o.address.take 106) o.uid o.gid).lis := by rw [b2]; exact h4
            split at hv
            · simp only [failClose, List.cons_append, List.nil_append, List.mem_cons, List.not_mem_nil, or_false] at hv
              rcases hv with rfl | rfl | rfl | rfl | rfl | rfl
              · exact absurd h6 h1
              · exact absurd h6 h2
              · exact absurd h6 h3
              · exact absurd h6 h4
              · exact absurd h6 h5
              · exact absurd h6 (hcl _)
            · simp only [List.cons_append, List.nil_append, List.mem_cons, List.not_mem_nil, or_false] at hv
              rcases hv with rfl | rfl | rfl | rfl | rfl | rfl
              · exact absurd h6 h1
              · exact absurd h6 h2
              · exact absurd h6 h3
              · exact absurd h6 h4
              · exact absurd h6 h5
              · obtain ⟨n, hn1, hn2⟩ := hl.2.2
                have hn1' : (chown e (chmod e w3 (o.address.take 106) o.mode) (o.address.take 106) o.uid o.gid).fs p = some n := hn1
                by_cases hpp : p = o.address.take 106
                · rw [hpp]
                  exact ⟨_, b4, rfl, rfl, rfl⟩
                · rw [b5 p hpp, a5 p hpp, hbd.other p hpp] at hn1'
                  exact absurd (hw.2.2 p n _ hn1' hn2) (Nat.lt_irrefl _)

example : ∃ v ∈ (listenUnix unixEnv ⟨[47], some 384, none, none⟩ unixWorld).hist, listensAt v [47] 3 :=
  ⟨_, List.mem_of_getLast? (by rfl), by decide, by decide, _, rfl, rfl⟩

/-- A path of 107 bytes, which is accepted. -/
def path107 : Path := List.replicate 106 1 ++ [2]

/-- Another file, whose name is the path without the last byte. -/
def unixWorld' : World := { unixWorld with fs := fun q => if q = List.replicate 106 1 then some ⟨none, 420, 5, 5⟩ else none }

/-- FALSE in general: with a path of 107 bytes, which is not too long, the socket listens at the path without its last byte. The file of that name,
which has nothing to do with the endpoint, is removed, and nobody reaches the endpoint at its path. -/
theorem unix_listens_false :
    path107.length = 107 ∧ Granting unixEnv ∧ Sane unixWorld' ∧
    (listenUnix unixEnv ⟨path107, none, none, none⟩ unixWorld').sock = some 3 ∧
    (∀ f, ¬ listensAt (listenUnix unixEnv ⟨path107, none, none, none⟩ unixWorld').w path107 f) ∧
    unixWorld'.fs (List.replicate 106 1) = some ⟨none, 420, 5, 5⟩ ∧
    (listenUnix unixEnv ⟨path107, none, none, none⟩ unixWorld').w.fs (List.replicate 106 1) = some ⟨some 3, 493, 0, 0⟩ := by
  have hs : Sane unixWorld' := by
    refine ⟨by simp [unixWorld', unixWorld], by simp [unixWorld', unixWorld], fun p n f h hn => ?_⟩
    simp only [unixWorld'] at h
    split at h
    · cases h
      cases hn
    · cases h
  have htake : path107.take 106 = List.replicate 106 1 := by decide
  have hne : path107 ≠ List.replicate 106 1 := by decide
  have hsock := unix_listens_available unixEnv ⟨path107, none, none, none⟩ unixWorld' unixEnv_granting (by decide)
  obtain ⟨-, -, hd⟩ := (listenUnix_spec unixEnv ⟨path107, none, none, none⟩ hs).2 _ hsock
  refine ⟨by decide, unixEnv_granting, hs, hsock, ?_, by decide, ?_⟩
  · rintro f ⟨-, -, n, hn, -⟩
    rw [hd.other path107 (by rw [htake]; exact hne)] at hn
    simp only [unixWorld', if_neg hne] at hn
    cases hn
  · have hk := hd.node
    rw [show (⟨path107, none, none, none⟩ : Opts).address.take 106 = List.replicate 106 1 from htake] at hk
    exact hk

/-! ## C161: UNIX endpoints stay reachable -/

/-- After any sequence of additions and removals of UNIX endpoints, with any calls refused by the operating system, each endpoint that has a socket
is reached at its path. The full statement is without `CarefulRun`, that is, also if a path is used by two endpoints; it is false
(`endpoints_reachable_false`). -/
theorem endpoints_reachable_partial (w : World) (hw : Sane w) (others : List Nat) (cs : List Call) (hc : CarefulRun ⟨w, [], others⟩ cs)
    (x : Endpt) (hx : x ∈ (after ⟨w, [], others⟩ cs).endpts) (f : Nat) (hf : x.sock = some f) :
    listensAt (after ⟨w, [], others⟩ cs).w x.path f :=
  (reach_after cs (own_start hw others) (reach_start w others) hw.1 hc).reach x hx f hf

/-- Two endpoints, one of them removed and added again. -/
def unixCalls : List Call :=
  [.add unixEnv 1 ⟨[47, 1], none, none, none⟩, .add unixEnv 2 ⟨[47, 2], none, none, none⟩, .del unixEnv 1, .add unixEnv 1 ⟨[47, 1], none, none, none⟩]

example : listensAt (after ⟨unixWorld, [], []⟩ unixCalls).w [47, 1] 5 ∧ listensAt (after ⟨unixWorld, [], []⟩ unixCalls).w [47, 2] 4 := by
  have hc : CarefulRun ⟨unixWorld, [], []⟩ unixCalls := by
    refine ⟨⟨by decide, by intro x hx; simp at hx⟩, ⟨by decide, ?_⟩, trivial, ⟨by decide, ?_⟩, trivial⟩
    · have hk : ∀ x ∈ [Endpt.mk 1 [47, 1] (some 3)], x.path ≠ [47, 2] := by decide
      exact hk
    · have hk : ∀ x ∈ [Endpt.mk 2 [47, 2] (some 4)], x.path ≠ [47, 1] := by decide
      exact hk
  refine ⟨endpoints_reachable_partial unixWorld unixWorld_sane [] unixCalls hc ⟨1, [47, 1], some 5⟩ ?_ 5 rfl,
    endpoints_reachable_partial unixWorld unixWorld_sane [] unixCalls hc ⟨2, [47, 2], some 4⟩ ?_ 4 rfl⟩
  · exact List.mem_cons_of_mem _ List.mem_cons_self
  · exact List.mem_cons_self

/-- FALSE in general: a second endpoint with the same path takes the path from the first one, both are reported as listening, and once the first
one is removed, nobody reaches the second one either. -/
theorem endpoints_reachable_false :
    (add unixEnv 2 ⟨[47, 1], none, none, none⟩ (add unixEnv 1 ⟨[47, 1], none, none, none⟩ ⟨unixWorld, [], []⟩).2).1 = true ∧
    (let s := after ⟨unixWorld, [], []⟩ [.add unixEnv 1 ⟨[47, 1], none, none, none⟩, .add unixEnv 2 ⟨[47, 1], none, none, none⟩]
     s.endpts = [⟨1, [47, 1], some 3⟩, ⟨2, [47, 1], some 4⟩] ∧ ¬ listensAt s.w [47, 1] 3) ∧
    (let s := after ⟨unixWorld, [], []⟩ [.add unixEnv 1 ⟨[47, 1], none, none, none⟩, .add unixEnv 2 ⟨[47, 1], none, none, none⟩, .del unixEnv 1]
     s.endpts = [⟨2, [47, 1], some 4⟩] ∧ s.w.fs [47, 1] = none) := by
  refine ⟨rfl, ⟨rfl, ?_⟩, rfl, rfl⟩
  rintro ⟨-, -, n, hn, hs⟩
  have hk : some (⟨some 4, 493, 0, 0⟩ : Node) = some n := hn
  cases hk
  cases hs

/-! ## C162: No socket of a UNIX endpoint is leaked -/

/-- A failed attempt leaves the open and the listening sockets as they were. -/
theorem unix_listen_failed_closed (e : Env) (o : Opts) (w : World) (hw : Sane w) (h : (listenUnix e o w).sock = none) :
    (listenUnix e o w).w.fds = w.fds ∧ (listenUnix e o w).w.lis = w.lis :=
  ⟨((listenUnix_spec e o hw).1 h).fds, ((listenUnix_spec e o hw).1 h).lis⟩

example : (listenUnix { unixEnv with listenOk := false } ⟨[47], none, none, none⟩ unixWorld).w.fds = [0, 1, 2] :=
  (unix_listen_failed_closed _ _ _ unixWorld_sane rfl).1

/-- After any sequence of calls, the sockets that are open are those that were open before and those of the endpoints, and no two endpoints have the
same one. -/
theorem unix_sockets_owned (w : World) (hw : Sane w) (others : List Nat) (cs : List Call) :
    (∀ f, f ∈ (after ⟨w, [], others⟩ cs).w.fds ↔ f ∈ w.fds ∨ ∃ x ∈ (after ⟨w, [], others⟩ cs).endpts, x.sock = some f) ∧
    (∀ x ∈ (after ⟨w, [], others⟩ cs).endpts, ∀ y ∈ (after ⟨w, [], others⟩ cs).endpts, ∀ f, x.sock = some f → y.sock = some f → x = y) ∧
    (∀ x ∈ (after ⟨w, [], others⟩ cs).endpts, ∀ y ∈ (after ⟨w, [], others⟩ cs).endpts, x.name = y.name → x = y) := by
  have h := own_after cs (own_start hw others) hw.1
  exact ⟨h.fds, h.socks, h.names⟩

example : ∀ f, f ∈ (after ⟨unixWorld, [], []⟩ (unixCalls ++ [.del unixEnv 1, .del unixEnv 2])).w.fds ↔ f ∈ [0, 1, 2] := by
  intro f
  rw [(unix_sockets_owned unixWorld unixWorld_sane [] _).1]
  have hk : (after ⟨unixWorld, [], []⟩ (unixCalls ++ [.del unixEnv 1, .del unixEnv 2])).endpts = [] := rfl
  rw [hk]
  simp [unixWorld]

/-! ## C163: Adding a UNIX endpoint can be tried again -/

/-- After a failed attempt and the removal of the endpoint, it is added if the calls are granted. The full statement is without the removal; it is
false (`unix_add_again_false`). -/
theorem unix_add_again_partial (e e' e'' : Env) (name : Nat) (o : Opts) (s : Srv) (he : Granting e'') (hlen : o.address.length ≤ 107)
    (hfree : name ∉ s.others) :
    (add e'' name o (del e' name (add e name o s).2)).1 = true := by
  have hoth : ∀ t : Srv, (del e' name t).others = t.others := by
    intro t
    unfold del
    split <;> rfl
  have hadd : (add e name o s).2.others = s.others := by
    unfold add
    split <;> rfl
  have hno : ∀ t : Srv, (del e' name t).endpts.any (fun x => x.name == name) = false := by
    intro t
    unfold del
    cases hf : t.endpts.find? (fun x => x.name == name) with
    | none =>
      simp only [List.any_eq_false]
      exact List.find?_eq_none.1 hf
    | some x =>
      simp only [List.any_eq_false]
      intro y hy
      have := (List.mem_filter.1 hy).2
      simpa using this
  unfold add
  rw [if_neg]
  · show (listenUnix e'' o _).sock.isSome = true
    rw [unix_listens_available e'' o _ he hlen]
    rfl
  · rw [hno, hoth]
    have hs : ∀ t : Srv, t.others = s.others → ¬ (false || t.others.contains name) = true := by
      intro t ht
      simp [ht, hfree]
    exact hs _ hadd

example : (add unixEnv 1 ⟨[47], none, none, none⟩ (del unixEnv 1
    (add { unixEnv with bindOk := false } 1 ⟨[47], none, none, none⟩ ⟨unixWorld, [], []⟩).2)).1 = true :=
  unix_add_again_partial _ _ _ _ _ _ unixEnv_granting (by decide) (by decide)

/-- FALSE in general: the endpoint of a failed attempt is kept, so that the next attempt is refused although nothing listens. -/
theorem unix_add_again_false :
    (add { unixEnv with bindOk := false } 1 ⟨[47], none, none, none⟩ ⟨unixWorld, [], []⟩).1 = false ∧
    Granting unixEnv ∧
    (add unixEnv 1 ⟨[47], none, none, none⟩ (add { unixEnv with bindOk := false } 1 ⟨[47], none, none, none⟩ ⟨unixWorld, [], []⟩).2).1 = false ∧
    (add { unixEnv with bindOk := false } 1 ⟨[47], none, none, none⟩ ⟨unixWorld, [], []⟩).2.endpts = [⟨1, [47], none⟩] :=
  ⟨rfl, unixEnv_granting, rfl, rfl⟩

/-! ## C164: A client reaches the UNIX socket at the path it was given -/

/-- The connection is to the socket that listens at the path, which is also the path of the session. The full statement is for paths of any length; it
is false (`unix_client_false`). -/
theorem unix_client_partial (w : World) (a : Path) (hlen : a.length ≤ 107) (f : Nat) (p : Path) :
    connectUnix w a = some (f, p) ↔ listensAt w a f ∧ p = a := by
  unfold connectUnix
  have hp : snprintf sunPathSize a = a := List.take_of_length_le hlen
  rw [hp]
  unfold connect listensAt
  cases hn : w.fs a with
  | none => simp
  | some n =>
    cases hs : n.sock with
    | none => simp [hs]
    | some g =>
      by_cases hg : w.fds.contains g && w.lis.contains g
      · have hg1 : g ∈ w.fds ∧ g ∈ w.lis := by simpa using hg
        simp only [hs, hg, if_true, Option.map_some, Option.some.injEq, Prod.mk.injEq]
        constructor
        · rintro ⟨rfl, rfl⟩
          exact ⟨⟨hg1.1, hg1.2, n, rfl, hs⟩, rfl⟩
        · rintro ⟨⟨-, -, m, rfl, hm⟩, rfl⟩
          rw [hs] at hm
          exact ⟨Option.some.inj hm, rfl⟩
      · simp only [hs, hg, Bool.false_eq_true, if_false, Option.map_none]
        constructor
        · intro h
          cases h
        · rintro ⟨⟨h1, h2, m, hm, hm2⟩, -⟩
          cases hm
          rw [hs] at hm2
          cases hm2
          exact absurd (by simpa using ⟨h1, h2⟩) hg

/-- A client that is given the path of an endpoint reaches it. -/
theorem unix_client_server_partial (e : Env) (o : Opts) (w : World) (hw : Sane w) (hlen : o.address.length ≤ 106) (f : Nat)
    (h : (listenUnix e o w).sock = some f) : connectUnix (listenUnix e o w).w o.address = some (f, o.address) :=
  (unix_client_partial _ _ (by omega) _ _).2 ⟨(unix_listens_partial e o w hw hlen f h).1, rfl⟩

example : connectUnix (listenUnix unixEnv ⟨[47, 115], none, none, none⟩ unixWorld).w [47, 115] = some (3, [47, 115]) :=
  unix_client_server_partial _ _ _ unixWorld_sane (by decide) _ rfl

/-- FALSE in general: a path that is too long is cut, so that the client is connected to the socket of another path, while the session names the path
that was given. -/
theorem unix_client_false :
    ∃ (w : World) (a b : Path), Sane w ∧ b ≠ a ∧ listensAt w b 3 ∧ (∀ f, ¬ listensAt w a f) ∧ connectUnix w a = some (3, a) := by
  refine ⟨⟨fun q => if q = List.replicate 107 1 then some ⟨some 3, 493, 0, 0⟩ else none, [3], [3], 4⟩, List.replicate 108 1, List.replicate 107 1,
    ⟨by simp, by simp, fun p n f h hn => ?_⟩, by decide, ⟨by simp, by simp, ⟨some 3, 493, 0, 0⟩, by simp, rfl⟩, ?_, by decide⟩
  · simp only at h
    split at h
    · cases h
      cases hn
      decide
    · cases h
  · rintro f ⟨-, -, n, hn, -⟩
    have hne : List.replicate 108 1 ≠ List.replicate 107 1 := by decide
    simp only [if_neg hne] at hn
    cases hn

/-- FALSE in general, too: with a path of 107 bytes a client does not reach an endpoint with that path. -/
theorem unix_client_server_false :
    (listenUnix unixEnv ⟨path107, none, none, none⟩ unixWorld').sock = some 3 ∧
    connectUnix (listenUnix unixEnv ⟨path107, none, none, none⟩ unixWorld').w path107 = none := by
  refine ⟨unix_listens_false.2.2.2.1, ?_⟩
  cases hc : connectUnix (listenUnix unixEnv ⟨path107, none, none, none⟩ unixWorld').w path107 with
  | none => rfl
  | some r =>
    obtain ⟨f, p⟩ := r
    exact absurd ((unix_client_partial _ _ (by decide) f p).1 hc).1 (unix_listens_false.2.2.2.2.1 f)

/-! ## C165: The user of a UNIX session is the owner of the client process -/

/-- The name of an accepted session is the one in the passwd database for the UID that the operating system reports for the client. -/
theorem unix_user_sound (alloc : Nat → Bool) (dup : Bool) (sys : Option Nat) (db : Nat → Db) (peer : Option Nat) (n : Name)
    (h : (acceptUnix alloc dup sys db peer).user = some n) :
    ∃ uid, peer = some uid ∧ (db uid).err = false ∧ (db uid).entry = some n := by
  unfold acceptUnix at h
  cases peer with
  | none => cases h
  | some uid =>
    refine ⟨uid, rfl, ?_⟩
    cases hg : getpw alloc sys (db uid) with
    | mk r b =>
      simp only [hg] at h
      cases r with
      | none => cases h
      | some m =>
        simp only at h
        split at h
        · have hm : m = n := Option.some.inj h
          have ha := getpwLoop_sound alloc (db uid) _ m b hg
          rw [hm] at ha
          unfold Db.answer at ha
          split at ha
          · cases ha
          · rename_i he
            exact ⟨by simpa using he, ha⟩
        · cases h

/-- With enough memory, each client with a name is accepted, whatever the size of its passwd entry. -/
theorem unix_user_complete (sys : Option Nat) (db : Nat → Db) (uid : Nat) (n : Name) (he : (db uid).err = false) (hn : (db uid).entry = some n) :
    acceptUnix (fun _ => true) true sys db (some uid) = ⟨some n, true, false⟩ := by
  unfold acceptUnix getpw
  simp only [getpwLoop_all]
  have ha : (db uid).answer = some n := by
    unfold Db.answer
    rw [he]
    exact hn
  rw [ha]
  rfl

example : acceptUnix (fun _ => true) true (some 1024) (fun u => ⟨1000000, if u = 0 then some "root".toList else none, false⟩) (some 0) =
    ⟨some "root".toList, true, false⟩ := unix_user_complete _ _ _ _ rfl rfl

/-! ## C166: A UNIX client that is turned down leaves nothing behind -/

/-- The socket of a client that is turned down is closed, that of an accepted one is open. -/
theorem unix_rejected_closed (alloc : Nat → Bool) (dup : Bool) (sys : Option Nat) (db : Nat → Db) (peer : Option Nat) :
    (acceptUnix alloc dup sys db peer).sockOpen = (acceptUnix alloc dup sys db peer).user.isSome := by
  unfold acceptUnix
  cases peer with
  | none => rfl
  | some uid =>
    cases hg : getpw alloc sys (db uid) with
    | mk r b =>
      simp only [hg]
      cases r with
      | none => rfl
      | some m => cases dup <;> rfl

/-- No memory is lost for clients whose UID is known. The full statement is for all clients; it is false (`unix_rejected_leak_false`). -/
theorem unix_rejected_leak_partial (alloc : Nat → Bool) (dup : Bool) (sys : Option Nat) (db : Nat → Db) (peer : Option Nat)
    (hk : ∀ uid, peer = some uid → (db uid).answer ≠ none) (ha : ∀ n, alloc n = true) :
    (acceptUnix alloc dup sys db peer).leak = false := by
  have hall : alloc = fun _ => true := funext ha
  subst hall
  unfold acceptUnix
  cases peer with
  | none => rfl
  | some uid =>
    have h1 := hk uid rfl
    unfold getpw
    simp only [getpwLoop_all]
    cases hd : (db uid).answer with
    | none => exact absurd hd h1
    | some m => cases dup <;> rfl

example : (acceptUnix (fun _ => true) false none (fun _ => ⟨5000, some ['a'], false⟩) (some 3)).leak = false :=
  unix_rejected_leak_partial _ _ _ _ _ (fun _ _ => by decide) (fun _ => rfl)

/-- FALSE in general: each client with a UID that has no name, such as one in a container, costs the server a buffer. -/
theorem unix_rejected_leak_false (sys : Option Nat) (db : Nat → Db) (uid : Nat) (h : (db uid).entry = none) :
    acceptUnix (fun _ => true) true sys db (some uid) = ⟨none, false, true⟩ := by
  unfold acceptUnix getpw
  simp only [getpwLoop_all]
  have ha : (db uid).answer = none := by
    unfold Db.answer
    rw [h]
    split <;> rfl
  rw [ha]

example : (acceptUnix (fun _ => true) true none (fun _ => ⟨100, none, false⟩) (some 65534)).leak = true := by
  rw [unix_rejected_leak_false _ _ _ rfl]

/-! ## C167: System users are found whatever the size of their entry -/

/-- With enough memory, looking up a user gives what the database has, whatever the size of the entry and the first size of the buffer; both ways of
growing the buffer come to an end. -/
theorem pw_found (d : Db) (sys : Option Nat) (he : d.err = false) :
    (getpw (fun _ => true) sys d).1 = d.entry ∧ getpwnam (fun _ => true) d = d.entry := by
  have ha : d.answer = d.entry := by
    unfold Db.answer
    rw [he]
    rfl
  refine ⟨?_, ?_⟩
  · unfold getpw
    rw [getpwLoop_all, ha]
  · unfold getpwnam
    rw [retryLoop_all, ha]

example : getpwnam (fun _ => true) ⟨10 ^ 9, some "root".toList, false⟩ = some "root".toList := (pw_found ⟨10 ^ 9, _, false⟩ none rfl).2

/-- However much memory there is, a name that is found is the one in the database. -/
theorem pw_sound (alloc : Nat → Bool) (d : Db) (sys : Option Nat) (n : Name)
    (h : (getpw alloc sys d).1 = some n ∨ getpwnam alloc d = some n) : d.entry = some n := by
  have ha : d.answer = some n := by
    rcases h with h | h
    · exact getpwLoop_sound alloc d _ n (getpw alloc sys d).2 (Prod.ext h rfl)
    · exact retryLoop_sound alloc d _ n h
  unfold Db.answer at ha
  split at ha
  · cases ha
  · exact ha

end Verif.Props
