import Verif.Lemmas.SockOpt
import Verif.Lemmas.Login
import Verif.Props.ConfEndpt

/-!
# Properties: the sockets of sessions have the options they should have
-/

namespace Verif.Props
open Verif.ConfEndpt
open Verif.SockOpt

/-! ## Connections accepted by the server -/

/-- **C250.** A connection that the server accepts at an endpoint is non-blocking, sends without delay and has the keepalives of that endpoint, whatever other
endpoints there are and whatever was pending; looking for a connection has no undefined behaviour. -/
theorem accepted_socket_options (s : Srv) (bs : List Accept.Bind) (hb : BindsOf s bs) (lst : Int → SockOpt.Opts) (hl : Listening lst)
    (poll : Option (Int → Accept.Ev)) (a : AcceptAns) (ka : KaAns) :
    ∃ bs' r, SockOpt.accept poll lst a ka (s.endpts.map Endpt.ka) bs = some (bs', r) ∧ BindsOf s bs' ∧
      ∀ i o, r = some (i, o) → ∃ e, s.endpts[i]? = some e ∧ e.sock.isSome = true ∧ KeepsAlive e.ka o ∧ o.nonblock = true ∧ o.nodelay = true := by
  by_cases he : s.endpts = []
  · exact ⟨bs, none, by simp [SockOpt.accept, he], hb, by simp⟩
  have hne : (s.endpts.map Endpt.ka).isEmpty = false := by simpa using he
  obtain ⟨ok, ev, rfl⟩ : ∃ (ok : Bool) (ev : Int → Accept.Ev), poll = if ok then some ev else none := by
    cases poll with
    | none => exact ⟨false, fun _ => ⟨false, false⟩, rfl⟩
    | some ev => exact ⟨true, ev, rfl⟩
  obtain ⟨bs', ch, h1, h2, h3⟩ := acceptBinds_spec ev ok lst a bs
  have hb' : BindsOf s bs' := by rw [BindsOf, h2]; exact hb
  rcases h3 with ⟨i, b, h4, h5, h6, h7⟩ | ⟨-, h7⟩
  · cases hx : (a.accept && a.flags && a.host) with
    | false =>
      rw [hx] at h7
      exact ⟨bs', none, by simp [SockOpt.accept, hne, h7], hb', by simp⟩
    | true =>
      rw [hx, if_pos rfl] at h7
      have hm : (bs'.map Accept.Bind.sock)[i]? = some b.sock := by rw [List.getElem?_map, h5]; rfl
      rw [hb', List.getElem?_map] at hm
      cases hei : s.endpts[i]? with
      | none => rw [hei] at hm; cases hm
      | some e =>
        rw [hei] at hm
        simp only [Option.map_some, Option.some.injEq] at hm
        have hk : (s.endpts.map Endpt.ka)[i]? = some e.ka := by rw [List.getElem?_map, hei]; rfl
        have hsock : e.sock.isSome = true := by
          cases hs : e.sock with
          | some f => rfl
          | none => simp only [fdOf, hs] at hm; omega
        cases hc : configureKa e.ka ka { lst b.sock with nonblock := true } with
        | mk o r =>
          cases r with
          | false => exact ⟨bs', none, by simp [SockOpt.accept, hne, h7, hk, hc], hb', by simp⟩
          | true =>
            refine ⟨bs', some (i, o), by simp [SockOpt.accept, hne, h7, hk, hc], hb', ?_⟩
            rintro _ _ ⟨⟩
            obtain ⟨p1, p2, p3⟩ := configureKa_ok hc
            obtain ⟨new, la, hla⟩ := hl b.sock
            exact ⟨e, hei, hsock, p1, p2, p3.trans (listenInet_nodelay hla : (lst b.sock).nodelay = true)⟩
  · exact ⟨bs', none, by simp [SockOpt.accept, hne, h7], hb', by simp⟩

/-- **C250.** The connection is not lost for its options, unless the operating system does not set keepalives as the endpoint has them; then no connection is
accepted there. -/
theorem accepted_if_settable (s : Srv) (bs : List Accept.Bind) (lst : Int → SockOpt.Opts) (poll : Option (Int → Accept.Ev)) (ka : KaAns)
    (i : Nat) (e : Endpt) (he : s.endpts[i]? = some e) (bs' : List Accept.Bind) (h : Accept.choose poll bs = some (bs', .at i)) :
    (∃ o, SockOpt.accept poll lst ⟨true, true, true⟩ ka (s.endpts.map Endpt.ka) bs = some (bs', some (i, o))) ↔ Settable e.ka ka := by
  have hne : (s.endpts.map Endpt.ka).isEmpty = false := by
    cases hs : s.endpts with
    | nil => rw [hs] at he; cases he
    | cons _ _ => rfl
  obtain ⟨ok, ev, rfl⟩ : ∃ (ok : Bool) (ev : Int → Accept.Ev), poll = if ok then some ev else none := by
    cases poll with
    | none => exact ⟨false, fun _ => ⟨false, false⟩, rfl⟩
    | some ev => exact ⟨true, ev, rfl⟩
  obtain ⟨bs2, ch, h1, h2, h3⟩ := acceptBinds_spec ev ok lst ⟨true, true, true⟩ bs
  rw [h] at h1
  cases h1
  rcases h3 with ⟨j, b, h4, h5, h6, h7⟩ | ⟨h7, -⟩
  · cases h4
    have hk : (s.endpts.map Endpt.ka)[i]? = some e.ka := by rw [List.getElem?_map, he]; rfl
    rw [← configureKa_iff e.ka ka { lst b.sock with nonblock := true }]
    simp only [Bool.and_self, if_true] at h7
    cases hc : configureKa e.ka ka { lst b.sock with nonblock := true } with
    | mk o r => cases r <;> simp [SockOpt.accept, hne, h7, hk, hc]
  · exact absurd rfl (h7 i)

/-- **C250.** Keepalives of connections are those of the configuration: after any data and any diffs that do not remove keepalives from it (nor change a
transport or remove a port; see C136 and C137 for those), a connection is accepted at the address and port of a configured endpoint and has its keepalives. -/
theorem accepted_keepalives_partial (env : Env) (d : ListenData) (ds : List ListenDiff) (c0 c : ListenConf) (h0 : d.conf = some c0)
    (hd : ∀ x ∈ ds, noLost x) (hka : ∀ x ∈ ds, keepsKa x) (h : patchListenAll c0 ds = some c) (s : Srv) (hr : run env d.tree (ds.map listenTree) = .ok s)
    (bs bs' : List Accept.Bind) (hb : BindsOf s bs) (lst : Int → SockOpt.Opts) (hl : Listening lst) (poll : Option (Int → Accept.Ev)) (a : AcceptAns) (ka : KaAns)
    (i : Nat) (o : SockOpt.Opts) (hc : SockOpt.accept poll lst a ka (s.endpts.map Endpt.ka) bs = some (bs', some (i, o))) :
    ∃ e y, s.endpts[i]? = some e ∧ c.endpts e.name = some y ∧ Serves s.net e y ∧
      Alive o (y.ka.idle.getD 7200) (y.ka.probes.getD 9) (y.ka.interval.getD 75) := by
  obtain ⟨_, _, h1, -, h2⟩ := accepted_socket_options s bs hb lst hl poll a ka
  rw [hc] at h1
  cases h1
  obtain ⟨e, he, -, hk, -⟩ := h2 i o rfl
  have p2 := listenAs_of_inv _ _ _ (run_inv env true d ds c0 c h0 (fun x hx => okDiff_true x (hd x hx) (hka x hx)) h s hr).1
  have hf := Login.nodup_find Endpt.name s.endpts p2.1 e (List.mem_of_getElem? he)
  have hv := p2.2.1 e.name
  have hw := (keepalives_follow_partial env d ds c0 c h0 hd hka h s hr).2 e.name
  rw [hf] at hv hw
  cases hy : c.endpts e.name with
  | none => rw [hy] at hv; exact hv.elim
  | some y =>
    rw [hy] at hv hw
    obtain ⟨w1, w2, w3, w4⟩ := hw
    have := hk.1 w1
    rw [w2, w3, w4] at this
    exact ⟨e, y, he, hy, hv, this⟩

/-- Options of a new socket on Linux, for the examples. -/
def linuxSock : SockOpt.Opts := ⟨false, false, false, 7200, 9, 75⟩

/-- Linux sets the values, for the examples. -/
def linuxKa : KaAns := ⟨true, true, true, true⟩

/-- Two endpoints with a connection waiting at each; the second one has keepalives of its own. -/
example : SockOpt.accept (some (fun _ => ⟨true, false⟩)) (fun _ => { linuxSock with nodelay := true }) ⟨true, true, true⟩ linuxKa
      [⟨true, 7200, 9, 75⟩, ⟨true, 60, 3, 5⟩] [⟨0, false⟩, ⟨1, false⟩] =
    some ([⟨0, true⟩, ⟨1, false⟩], some (1, ⟨true, true, true, 60, 3, 5⟩)) := by decide +kernel

/-- More probes than Linux allows: nobody can connect. -/
example : SockOpt.accept (some (fun _ => ⟨true, false⟩)) (fun _ => { linuxSock with nodelay := true }) ⟨true, true, true⟩ ⟨true, true, false, true⟩
      [⟨true, 7200, 200, 75⟩] [⟨0, false⟩] = some ([⟨0, false⟩], none) := by decide +kernel

example : Listening (fun _ => { linuxSock with nodelay := true }) := fun _ => ⟨linuxSock, ⟨true, true, true, true, true⟩, rfl⟩

/-! ## Call Home -/

/-- **C250.** Full statement for Call Home (false, see `call_home_options_false`): every connection has the keepalives that the endpoint has then, is
non-blocking and sends without delay. -/
def CallHomeOptions : Prop :=
  ∀ (new : SockOpt.Opts) (ts : List SockOpt.Attempt) (j : Nat) (o : SockOpt.Opts), (SockOpt.attempts new none ts)[j]? = some (.conn o) →
    ∃ t, ts[j]? = some t ∧ KeepsAlive t.ka o ∧ o.nonblock = true ∧ o.nodelay = true

/-- **C250.** Proved without the last part, even if the keepalives were changed while a connection was under way; it sends without delay if it was not
started in an earlier attempt. -/
theorem call_home_options_partial (new : SockOpt.Opts) (ts : List SockOpt.Attempt) (j : Nat) (o : SockOpt.Opts)
    (h : (SockOpt.attempts new none ts)[j]? = some (.conn o)) :
    ∃ t, ts[j]? = some t ∧ KeepsAlive t.ka o ∧ o.nonblock = true ∧
      ((∀ (i : Nat) (u : SockOpt.Attempt) (q : SockOpt.Opts), i + 1 = j → ts[i]? = some u → (SockOpt.attempts new none ts)[i]? = some (.pending q) → u.last = true) →
        o.nodelay = true) := by
  obtain ⟨t, h1, h2, h3, h4⟩ := attempts_conn new ts none (by simp) j o h
  exact ⟨t, h1, h2, h3, h4 (fun _ => rfl)⟩

/-- An attempt whose connection takes too long, then one in which it is established; meanwhile the keepalives were changed. -/
def slowCall : List SockOpt.Attempt :=
  [⟨⟨true, 7200, 9, 75⟩, [⟨true, true, true, .timeout, linuxKa, true, true⟩], ⟨.up, linuxKa, true⟩, false⟩,
    ⟨⟨true, 60, 3, 5⟩, [], ⟨.up, linuxKa, true⟩, false⟩]

/-- The connection that was started in the first attempt has the new keepalives, but not TCP_NODELAY. -/
example : SockOpt.attempts linuxSock none slowCall = [.pending ⟨true, false, false, 7200, 9, 75⟩, .conn ⟨true, false, true, 60, 3, 5⟩] := by decide +kernel

/-- **C250, false in general.** A connection that is established in a later attempt than it was started in does not send without delay. -/
theorem call_home_options_false : ¬ CallHomeOptions := by
  intro h
  obtain ⟨_, _, _, _, h4⟩ := h linuxSock slowCall 1 ⟨true, false, true, 60, 3, 5⟩ (by decide +kernel)
  cases h4

/-! ## Clients -/

/-- **C250.** Full statement for clients (false, see `client_keepalives_false`): connections to servers and from servers that call send keepalives after one
second, ten, every five seconds, whatever thread they belong to. -/
def ClientKeepalives (c : SockOpt.Ctx) : Prop :=
  (∀ new as o, SockOpt.clientConnect new c as = .conn o → Alive o 1 10 5 ∧ o.nonblock = true ∧ o.nodelay = true) ∧
  (∀ poll lst a ka bs bs' i o, Listening lst → acceptCallhome c poll lst a ka bs = some (bs', some (i, o)) → Alive o 1 10 5 ∧ o.nonblock = true ∧ o.nodelay = true)

/-- **C250.** Proved for the main thread and threads that use its settings. -/
theorem client_keepalives_partial : ClientKeepalives .main := by
  refine ⟨fun new as o h => ?_, fun poll lst a ka bs bs' i o hl h => ?_⟩
  · obtain ⟨h1, h2, h3⟩ := connect_conn (by simp) h
    exact ⟨h1.1 rfl, h2, h3 rfl⟩
  · obtain ⟨ok, ev, rfl⟩ : ∃ (ok : Bool) (ev : Int → Accept.Ev), poll = if ok then some ev else none := by
      cases poll with
      | none => exact ⟨false, fun _ => ⟨false, false⟩, rfl⟩
      | some ev => exact ⟨true, ev, rfl⟩
    obtain ⟨bs2, ch, h1, h2, h3⟩ := acceptBinds_spec ev ok lst a bs
    rcases h3 with ⟨j, b, h4, h5, h6, h7⟩ | ⟨-, h7⟩
    · cases hx : (a.accept && a.flags && a.host) with
      | false => rw [hx] at h7; simp [acceptCallhome, h7] at h
      | true =>
        rw [hx, if_pos rfl] at h7
        simp only [acceptCallhome, h7] at h
        split at h
        · rename_i o' hc
          cases h
          obtain ⟨p1, p2, p3⟩ := configureKa_ok hc
          obtain ⟨new, la, hla⟩ := hl b.sock
          exact ⟨p1.1 rfl, p2, p3.trans (listenInet_nodelay hla : (lst b.sock).nodelay = true)⟩
        · cases h
    · simp [acceptCallhome, h7] at h

/-- A server that is reached at its second address, for the examples. -/
def secondAddr : List SockOpt.Ans := [⟨true, true, false, .up, linuxKa, true, true⟩, ⟨true, true, true, .up, linuxKa, true, true⟩]

example : SockOpt.clientConnect linuxSock .main secondAddr = .conn ⟨true, true, true, 1, 10, 5⟩ := by decide +kernel

/-- **C250, false in general.** Settings of other threads are zero, so their connections send no keepalives: a server that is gone is not noticed. -/
theorem client_keepalives_false : ¬ ClientKeepalives .own := by
  intro h
  have := (h.1 linuxSock secondAddr ⟨true, true, false, 7200, 9, 75⟩ (by decide +kernel)).1.1
  cases this

end Verif.Props
