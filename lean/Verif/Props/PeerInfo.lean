import Verif.Lemmas.PeerInfo

/-!
# C239 to C241: what a session tells about its peer, listening at an address, calling home from an address
-/

namespace Verif.Props

open Verif.PeerInfo

/-- The addresses of two names: one IPv4 address, an IPv6 address in a zone. -/
def demoResolve (t : Text) : List Inet :=
  if t = "localhost".toList then [⟨.v4, 2130706433, 0, (0, 0)⟩]
  else if t = "link".toList then [⟨.v6, 5, 1, (0, 0)⟩, ⟨.v6, 5, 2, (0, 0)⟩]
  else []

theorem demoResolve_ok : Resolver demoResolve := by
  intro t a ha
  simp only [demoResolve] at ha
  split at ha
  · simp only [List.mem_singleton] at ha; subst ha; exact ⟨by decide, by decide, by decide, fun _ => rfl⟩
  · split at ha
    · simp only [List.mem_cons, List.not_mem_nil, or_false] at ha
      rcases ha with rfl | rfl
      · exact ⟨by decide, by decide, by decide, by decide⟩
      · exact ⟨by decide, by decide, by decide, by decide⟩
    · exact absurd ha (by simp)

/-! ## C239: a session tells where its peer is -/

/-- SSH and TLS sessions of servers and clients tell the address and port at the other end of the connection, however they came about; missing from
`TellsPeer`: a Call Home connection that was pending with the file descriptor 0. -/
theorem tells_peer_partial (L : Lib) (resolve : Text → List Inet) (s : Sess) (a : Inet) (hL : L.Good) (hr : Resolver resolve)
    (h : Made L resolve (fun fd => fd ≠ 0) s a) : Tells L s a := by
  induction h with
  | accepted ti own a s ht ha h =>
    simp only [accept, accept_inet L hL own a ha, Option.map_some, Option.some.injEq] at h
    subst h; exact ⟨rfl, rfl⟩
  | ssh host port pick a s hp h =>
    simp only [connectSsh, Option.map_eq_some_iff] at h
    obtain ⟨c, hc, he⟩ := h
    have hp' : (defaults 830 host port).2 < 65536 := by simp only [defaults]; split <;> omega
    obtain ⟨_, h2, h3, _⟩ := sockConnect_tells L hL resolve hr _ _ hp' pick c hc
    injection he with he1 he2
    subst he1 he2
    exact ⟨h3, h2.symm⟩
  | tls host port pick a s hp h =>
    simp only [connectTls, Option.map_eq_some_iff] at h
    obtain ⟨c, hc, he⟩ := h
    have hp' : (defaults 6513 host port).2 < 65536 := by simp only [defaults]; split <;> omega
    obtain ⟨_, h2, h3, _⟩ := sockConnect_tells L hL resolve hr _ _ hp' pick c hc
    injection he with he1 he2
    subst he1 he2
    exact ⟨h3, h2.symm⟩
  | libssh port pick a s hp h =>
    simp only [connectLibssh, Option.map_eq_some_iff] at h
    obtain ⟨c, hc, he⟩ := h
    obtain ⟨_, h2, h3, _⟩ := sockConnect_tells L hL resolve hr _ _ hp pick c hc
    injection he with he1 he2
    injection he1 with he1
    subst he1 he2
    exact ⟨h3, h2.symm⟩
  | home ti dst port pick c hp h =>
    obtain ⟨_, h2, h3, _⟩ := sockConnect_tells L hL resolve hr _ _ hp pick c h
    exact ⟨h3, h2.symm⟩
  | pending ti port fd a c ha hp hf h =>
    simp only [sockPending, saddr2str_some L hL a ha.1] at h
    rw [if_pos (by omega)] at h
    simp only [Option.map_some, Option.some.injEq] at h
    subst h
    exact ⟨rfl, hp.symm⟩
  | called ti a s ha h =>
    simp only [acceptCallHome, accept_inet L hL [] a ha] at h
    cases ti with
    | ssh =>
      simp only [callHomeSsh, connectLibssh, Option.map_some, Res.ok.injEq, Option.some.injEq] at h
      subst h; exact ⟨rfl, rfl⟩
    | tls =>
      simp only [callHomeTls, Res.ok.injEq, Option.some.injEq] at h
      subst h; exact ⟨rfl, rfl⟩
    | unix => exact absurd h (by simp)
  | channel s s' a _ h ih =>
    have h1 : s.host = some (L.text a.fam a.num) := ih.1
    simp only [newChannel, h1, Res.ok.injEq] at h
    subst h; exact ⟨rfl, ih.2⟩

/-- A session of a second channel of a session with the local host. -/
example : Made numLib demoResolve (fun fd => fd ≠ 0) ⟨.ssh, some "2130706433".toList, 830, none⟩ ⟨.v4, 2130706433, 0, (3, 62)⟩ :=
  .channel ⟨.ssh, some "2130706433".toList, 830, none⟩ _ _ (.ssh none 0 0 _ _ (by decide) (by decide +kernel)) (by decide +kernel)

/-- The connection with the file descriptor 0: nothing is told. -/
theorem tells_peer_false : ¬ TellsPeer := by
  intro h
  have := h numLib demoResolve (connectCh .ssh 4334 (⟨.v4, 1, 0, (16, 238)⟩, none)) ⟨.v4, 1, 0, (16, 238)⟩ numLib_good demoResolve_ok
    (.pending .ssh 4334 0 _ _ ⟨by decide, by decide, by decide, fun _ => rfl⟩ (by decide) trivial (by decide))
  exact absurd this.1 (by simp [getHost, connectCh])

/-- A server always accepts a connection over TCP as far as its address goes, and clients get a session with each address a name has, at the port given or
the default port. -/
theorem sessions_made (L : Lib) (hL : L.Good) (resolve : Text → List Inet) (hr : Resolver resolve) :
    (∀ ti own a, a.Ok → (accept L ti own (.inet a)).isSome = true) ∧
    (∀ ti a, ti ≠ .unix → a.Ok → ∃ s, acceptCallHome L ti (.inet a) = .ok (some s)) ∧
    (∀ (host : Option Text) (port pick : Nat) (a : Inet), port < 65536 →
      (resolve (if host = none ∨ host = some [] then "localhost".toList else host.getD []))[pick]? = some a →
      (∃ s b, connectSsh L resolve host port pick = some (b, s) ∧ b.fam = a.fam ∧ b.num = a.num ∧ b.scope = a.scope ∧
        portOf b = if port = 0 then 830 else port) ∧
      (∃ s b, connectTls L resolve host port pick = some (b, s) ∧ b.fam = a.fam ∧ b.num = a.num ∧ b.scope = a.scope ∧
        portOf b = if port = 0 then 6513 else port)) := by
  have hl : ("localhost".toList : List Char) = ['l', 'o', 'c', 'a', 'l', 'h', 'o', 's', 't'] := by decide
  have hd : ∀ (d : Nat) (host : Option Text) (port : Nat), defaults d host port =
      (if host = none ∨ host = some [] then "localhost".toList else host.getD [], if port = 0 then d else port) := by
    intro d host port
    rw [hl]
    rcases host with _ | _ | ⟨c, t⟩ <;> simp [defaults]
  refine ⟨?_, ?_, ?_⟩
  · intro ti own a ha; simp [accept, accept_inet L hL own a ha]
  · intro ti a ht ha
    simp only [acceptCallHome, accept_inet L hL [] a ha]
    cases ti with
    | ssh => exact ⟨_, rfl⟩
    | tls => exact ⟨_, rfl⟩
    | unix => exact absurd rfl ht
  · intro host port pick a hp hx
    constructor
    · have hp' : (if port = 0 then 830 else port) < 65536 := by split <;> omega
      refine ⟨⟨.ssh, some (L.text a.fam a.num), if port = 0 then 830 else port, none⟩, { a with port := htons (if port = 0 then 830 else port) }, ?_,
        rfl, rfl, rfl, (htons_portOf _ hp').1⟩
      simp only [connectSsh, hd]; rw [sockConnect_iff L hL resolve hr _ _ hp' pick, hx]; rfl
    · have hp' : (if port = 0 then 6513 else port) < 65536 := by split <;> omega
      refine ⟨⟨.tls, some (L.text a.fam a.num), if port = 0 then 6513 else port, none⟩, { a with port := htons (if port = 0 then 6513 else port) }, ?_,
        rfl, rfl, rfl, (htons_portOf _ hp').1⟩
      simp only [connectTls, hd]; rw [sockConnect_iff L hL resolve hr _ _ hp' pick, hx]; rfl

example : (connectTls numLib demoResolve (some []) 0 0).map (fun x => x.2) = some ⟨.tls, some "2130706433".toList, 6513, none⟩ := by decide +kernel

/-- Two peers with the same address, port and zone are the same; missing from `TellsApart`: peers in different zones. -/
theorem tells_apart_partial (L : Lib) (resolve : Text → List Inet) (s : Sess) (a b : Inet) (hL : L.Good) (hr : Resolver resolve) (ha : a.Ok) (hb : b.Ok)
    (h1 : Made L resolve (fun fd => fd ≠ 0) s a) (h2 : Made L resolve (fun fd => fd ≠ 0) s b) (hz : a.scope = b.scope) : a = b := by
  have t1 := tells_peer_partial L resolve s a hL hr h1
  have t2 := tells_peer_partial L resolve s b hL hr h2
  have he : L.text a.fam a.num = L.text b.fam b.num := by
    have := t1.1.symm.trans t2.1; injection this
  obtain ⟨hf, hn⟩ := text_inj L hL _ _ _ _ ha.1 hb.1 he
  have hp : portOf a = portOf b := t1.2.symm.trans t2.2
  obtain ⟨af, an, as, ap1, ap2⟩ := a
  obtain ⟨bf, bn, bs, bp1, bp2⟩ := b
  simp only [portOf, Inet.Ok] at *
  have : ap1 = bp1 ∧ ap2 = bp2 := by omega
  simp [hf, hn, hz, this.1, this.2]

/-- Two hosts with the same link-local address on different links. -/
theorem tells_apart_false : ¬ TellsApart := by
  intro h
  have := h numLib demoResolve ⟨.tls, some "::5".toList, 6513, none⟩ ⟨.v6, 5, 1, (25, 113)⟩ ⟨.v6, 5, 2, (25, 113)⟩ numLib_good demoResolve_ok
    ⟨by decide, by decide, by decide, by decide⟩ ⟨by decide, by decide, by decide, by decide⟩
    (.tls (some "link".toList) 0 0 _ _ (by decide) (by decide +kernel)) (.tls (some "link".toList) 0 1 _ _ (by decide) (by decide +kernel))
  exact absurd this (by decide)

/-- A second session in an SSH session copies a host that is there; missing from `ChannelSafe`: a Call Home connection that was pending with the file
descriptor 0. -/
theorem channel_safe_partial (L : Lib) (resolve : Text → List Inet) (s : Sess) (a : Inet) (hL : L.Good) (hr : Resolver resolve)
    (h : Made L resolve (fun fd => fd ≠ 0) s a) : newChannel s ≠ .ub := by
  have h1 : s.host = some (L.text a.fam a.num) := (tells_peer_partial L resolve s a hL hr h).1
  simp [newChannel, h1]

example : newChannel ⟨.ssh, some "::5".toList, 22, none⟩ = .ok ⟨.ssh, some "::5".toList, 22, none⟩ := by decide

/-- Copying the host that is missing. -/
theorem channel_safe_false : ¬ ChannelSafe := by
  intro h
  exact h numLib demoResolve (connectCh .ssh 4334 (⟨.v4, 1, 0, (16, 238)⟩, none)) ⟨.v4, 1, 0, (16, 238)⟩ numLib_good demoResolve_ok
    (.pending .ssh 4334 0 _ _ ⟨by decide, by decide, by decide, fun _ => rfl⟩ (by decide) trivial (by decide)) rfl

/-- Clients know the path of their UNIX socket; a server has it as the host, with port 0. SSH and TLS sessions have no path. Missing from `TellsPath`: the path on the
side of the server. -/
theorem tells_path_partial (L : Lib) (own : Text) :
    (∀ p : Text, getPath (connectUnix p) = some p) ∧ (∃ s, accept L .unix own .unix = some s ∧ getHost s = some own ∧ getPort s = 0) ∧
    ∀ (resolve : Text → List Inet) (s : Sess) (a : Inet), Made L resolve (fun _ => True) s a → getPath s = none := by
  refine ⟨fun p => rfl, ⟨_, rfl, rfl, rfl⟩, ?_⟩
  intro resolve s a h
  have key : ∀ s a, Made L resolve (fun _ => True) s a → s.path = none := by
    intro s a h
    induction h with
    | accepted ti own a s ht ha h => simp only [accept, Option.map_eq_some_iff] at h; obtain ⟨x, _, rfl⟩ := h; rfl
    | ssh host port pick a s hp h =>
      simp only [connectSsh, Option.map_eq_some_iff] at h; obtain ⟨c, _, he⟩ := h; injection he with _ he; subst he; rfl
    | tls host port pick a s hp h =>
      simp only [connectTls, Option.map_eq_some_iff] at h; obtain ⟨c, _, he⟩ := h; injection he with _ he; subst he; rfl
    | libssh port pick a s hp h =>
      simp only [connectLibssh, Option.map_eq_some_iff] at h; obtain ⟨c, _, he⟩ := h; injection he with _ he; subst he; rfl
    | home ti dst port pick c hp h => rfl
    | pending ti port fd a c ha hp hf h => rfl
    | called ti a s ha h =>
      simp only [acceptCallHome] at h
      cases hx : acceptInfo L [] (.inet a) with
      | none => rw [hx] at h; exact absurd h (by simp)
      | some x =>
        rw [hx] at h
        obtain ⟨x1, x2⟩ := x
        cases ti <;> cases x1 <;> simp [callHomeSsh, callHomeTls, connectLibssh] at h <;> subst h <;> rfl
    | channel s s' a _ h ih =>
      simp only [newChannel] at h
      cases hx : s.host with
      | none => rw [hx] at h; exact absurd h (by simp)
      | some x => rw [hx] at h; injection h with h; subst h; rfl
  simp only [getPath, key s a h]; split <;> rfl

example : getPath (connectUnix "/run/nc".toList) = some "/run/nc".toList ∧ getHost (connectUnix "/run/nc".toList) = none := by decide

/-- A session accepted on a UNIX socket has no path. -/
theorem tells_path_false : ¬ TellsPath := by
  intro h
  exact absurd (h.2 numLib "/run/nc".toList _ rfl) (by decide)

/-! ## C240: listening at exactly the address and port given -/

/-- A socket that is reported listens at the address that the text denotes and at the port, and is the only one that was opened; otherwise no socket is left. -/
theorem listen_exact (L : Lib) (hL : L.Good) (e : Env) (w : World) (hw : Fresh w) (t : Text) (port : Nat) (hp : port < 65536) :
    (∀ w' fd, listenInet L e w t port = (w', some fd) →
      ∃ f n a, L.pton f t = some n ∧ a.fam = f ∧ a.num = n ∧ a.scope = 0 ∧ a.Ok ∧ portOf a = port ∧
        w'.socks = ⟨fd, f, true, true, some a, true, none⟩ :: w.socks ∧ Fresh w' ∧ ∀ s ∈ w.socks, s.fd ≠ fd) ∧
    (∀ w', listenInet L e w t port = (w', none) → w'.socks = w.socks) := by
  have hh := htons_portOf port hp
  let f : Fam := if (!t.contains ':') = true then .v4 else .v6
  have hf : (!t.contains ':') = (f == .v4) := by
    have : ∀ b : Bool, (!b) = ((if (!b) = true then Fam.v4 else Fam.v6) == .v4) := by decide
    exact this _
  simp only [listenInet]
  rw [show (if (!t.contains ':') = true then Fam.v4 else Fam.v6) = f from rfl, hf]
  simp only [socket]
  rw [upd_head w hw _ (by rfl)]
  rw [upd_head w hw _ (by rfl)]
  rw [bindInet_head L e w hw _ (by rfl) (w.next + 1) (some t) port f rfl]
  rw [close_head w hw _ (by rfl), close_head w hw _ (by rfl), close_head w hw _ (by rfl)]
  simp only [Option.getD_some]
  cases hx : L.pton f t with
  | none =>
    constructor
    · intro w' fd h
      split at h <;> (try split at h) <;> (try split at h) <;> exact absurd (congrArg Prod.snd h) (by simp)
    · intro w' h
      split at h <;> (try split at h) <;> (try split at h) <;> (have := congrArg Prod.fst h; simp only at this; subst this; rfl)
  | some n =>
    have hn := hL.range f t n hx
    simp only
    by_cases hb : e.bindOk ⟨f, n, 0, htons port⟩ = true
    · rw [if_pos hb]
      simp only
      rw [close_head w hw _ (by rfl), upd_head w hw _ (by rfl)]
      constructor
      · intro w' fd h
        split at h
        · exact absurd (congrArg Prod.snd h) (by simp)
        · split at h
          · exact absurd (congrArg Prod.snd h) (by simp)
          · split at h
            · exact absurd (congrArg Prod.snd h) (by simp)
            · split at h
              · exact absurd (congrArg Prod.snd h) (by simp)
              · injection h with h1 h2
                injection h2 with h2
                subst h1 h2
                refine ⟨f, n, ⟨f, n, 0, htons port⟩, hx, rfl, rfl, rfl, ⟨hn, hh.2.1, hh.2.2, fun _ => rfl⟩, hh.1, rfl, ?_, ?_⟩
                · intro s hs
                  simp only [List.mem_cons] at hs
                  rcases hs with rfl | hs
                  · simp
                  · have := hw s hs; simp only; omega
                · intro s hs; have := hw s hs; omega
      · intro w' h
        split at h <;> (try split at h) <;> (try split at h) <;> (try split at h) <;>
          first
          | (have := congrArg Prod.fst h; simp only at this; subst this; rfl)
          | exact absurd (congrArg Prod.snd h) (by simp)
    · rw [if_neg hb]
      simp only
      constructor
      · intro w' fd h
        split at h <;> (try split at h) <;> (try split at h) <;> exact absurd (congrArg Prod.snd h) (by simp)
      · intro w' h
        split at h <;> (try split at h) <;> (try split at h) <;> (have := congrArg Prod.fst h; simp only at this; subst this; rfl)

/-- An operating system that grants everything. -/
def freeEnv : Env := ⟨fun _ => true, true, true, true, fun _ => true, true, fun _ => true⟩

theorem freeEnv_granting : Granting freeEnv := ⟨fun _ => rfl, rfl, rfl, rfl, fun _ => rfl, rfl, fun _ => rfl⟩

example : listenInet numLib freeEnv ⟨[], 3⟩ "::".toList 830 =
    (⟨[⟨3, .v6, true, true, some ⟨.v6, 0, 0, (3, 62)⟩, true, none⟩], 4⟩, some 3) := by decide +kernel

/-- One can listen at every address without a zone if the operating system grants it; missing from `ListensAnywhere`: addresses with a zone. -/
theorem listen_available_partial (L : Lib) (hL : L.Good) (e : Env) (he : Granting e) (w : World) (hw : Fresh w) (f : Fam) (n : Nat) (t : Text)
    (ht : L.pton f t = some n) (port : Nat) : (listenInet L e w t port).2.isSome = true := by
  have hf : (!t.contains ':') = (f == .v4) := by
    cases f with
    | v4 => have := hL.colon4 t n ht; simp [this]
    | v6 => have := hL.colon6 t n ht; simp [this]
  obtain ⟨h1, h2, h3, _, h5, h6, _⟩ := he
  have hff : (if (f == Fam.v4) = true then Fam.v4 else Fam.v6) = f := by cases f <;> rfl
  simp only [listenInet, hf, hff, h1, h2, h3, h6, Bool.not_true, Bool.false_eq_true, if_false, socket]
  rw [upd_head w hw _ (by rfl)]
  rw [upd_head w hw _ (by rfl)]
  rw [bindInet_head L e w hw _ (by rfl) (w.next + 1) (some t) port f rfl]
  simp [ht, h5]

example : (listenInet numLib freeEnv ⟨[], 0⟩ "16909060".toList 6513).2 = some 0 := by decide +kernel

/-- No address with a zone can be listened at. -/
theorem listen_available_false : ¬ ListensAnywhere := by
  intro h
  have := h numLib freeEnv ⟨[], 0⟩ "::5%1".toList 830 numLib_good freeEnv_granting (by intro s hs; exact absurd hs (by simp))
    ⟨.v6, 5, "::5".toList, "%1".toList, by decide +kernel, by decide, Or.inr ⟨['1'], by decide, by decide⟩⟩ (by decide)
  exact absurd this (by decide +kernel)

/-- A client that is given the address and the port that a server listens at connects to the socket of the server. -/
theorem client_reaches_listener (L : Lib) (hL : L.Good) (resolve : Text → List Inet) (hr : Resolver resolve) (e : Env) (w w' : World) (hw : Fresh w) (t : Text)
    (port : Nat) (hp : port < 65536) (hp0 : port ≠ 0) (fd : Nat) (hres : ∀ f n, L.pton f t = some n → ∃ x, resolve t = [⟨f, n, 0, x⟩])
    (h : listenInet L e w t port = (w', some fd)) :
    ∃ a s s', connectSsh L resolve (some t) port 0 = some (a, s) ∧ connectTls L resolve (some t) port 0 = some (a, s') ∧
      ∃ k ∈ w'.socks, k.fd = fd ∧ k.listening = true ∧ k.bound = some a ∧ ∀ k' ∈ w'.socks, k'.fd = fd → k' = k := by
  obtain ⟨f, n, a, h1, h2, h3, h4, h5, h6, h7, _, h8⟩ := (listen_exact L hL e w hw t port hp).1 w' fd h
  obtain ⟨x, hx⟩ := hres f n h1
  have hne : t ≠ [] := by intro he; rw [he, hL.empty] at h1; exact absurd h1 (by simp)
  have hh := htons_portOf port hp
  have ha : a = ⟨f, n, 0, htons port⟩ := by
    obtain ⟨af, an, as, ap1, ap2⟩ := a
    obtain ⟨_, q1, q2, _⟩ := h5
    simp only at h2 h3 h4 q1 q2
    subst h2 h3 h4
    simp only [portOf] at h6
    have : ap1 = (htons port).1 ∧ ap2 = (htons port).2 := by omega
    rw [this.1, this.2]
  have hc : sockConnect L resolve t port 0 = some (a, some (L.text f n)) := by
    rw [sockConnect_iff L hL resolve hr t port hp 0, hx, ha]; rfl
  have hd : ∀ d, defaults d (some t) port = (t, port) := by
    intro d; cases t with
    | nil => exact absurd rfl hne
    | cons c r => simp [defaults, hp0]
  refine ⟨a, ⟨.ssh, some (L.text f n), port, none⟩, ⟨.tls, some (L.text f n), port, none⟩, ?_, ?_, ?_⟩
  · simp only [connectSsh, hd, hc, Option.map_some]
  · simp only [connectTls, hd, hc, Option.map_some]
  · refine ⟨⟨fd, f, true, true, some a, true, none⟩, by rw [h7]; simp, rfl, rfl, rfl, ?_⟩
    intro k' hk' he
    rw [h7] at hk'
    simp only [List.mem_cons] at hk'
    rcases hk' with rfl | hk'
    · rfl
    · exact absurd he (h8 k' hk')

example : (connectSsh numLib (fun t => if t = "7".toList then [⟨.v4, 7, 0, (0, 0)⟩] else []) (some "7".toList) 830 0).map Prod.fst =
    some ⟨.v4, 7, 0, (3, 62)⟩ ∧ ((listenInet numLib freeEnv ⟨[], 3⟩ "7".toList 830).1.socks.map (·.bound)) = [some ⟨.v4, 7, 0, (3, 62)⟩] := by
  decide +kernel

/-! ## C241: Call Home connections come from the configured address and port -/

/-- A connection that is started with a local address or port comes from there, any address of the family standing in for a missing one; without both the
socket is not bound; no other socket is touched, and none is left when it fails. -/
theorem home_from_source (L : Lib) (hL : L.Good) (e : Env) (w : World) (hw : Fresh w) (src : Option Text) (port : Nat) (hp : port < 65536) (res : Inet) :
    (∀ w' fd, startConnect L e w src port res = (w', some fd) →
      (∀ s ∈ w.socks, s.fd ≠ fd) ∧ ∃ k, w'.socks = k :: w.socks ∧ k.fd = fd ∧ k.fam = res.fam ∧ k.peer = some res ∧ k.listening = false ∧
        (src = none → port = 0 → k.bound = none) ∧
        (src ≠ none ∨ port ≠ 0 → ∃ a, k.bound = some a ∧ a.fam = res.fam ∧ portOf a = port ∧ k.reuse = true ∧
          (∀ t, src = some t → L.pton res.fam t = some a.num) ∧ (src = none → a.num = 0))) ∧
    (∀ w', startConnect L e w src port res = (w', none) → w'.socks = w.socks) := by
  have hh := htons_portOf port hp
  have hfr : ∀ s ∈ w.socks, s.fd ≠ w.next := by intro s hs; have := hw s hs; omega
  simp only [startConnect]
  cases saddr2str L res with
  | none =>
    exact ⟨fun w' fd h => absurd (congrArg Prod.snd h) (by simp), fun w' h => by have := congrArg Prod.fst h; simp only at this; subst this; rfl⟩
  | some y =>
    simp only [socket]
    rw [upd_head w hw _ (by rfl)]
    rw [bindInet_head L e w hw _ (by rfl) (w.next + 1) src port res.fam rfl]
    rw [connectCall_head e w hw _ (by rfl), close_head w hw _ (by rfl), close_head w hw _ (by rfl)]
    have stop : ∀ {P : World → Nat → Prop} (v : World), v.socks = w.socks →
        (∀ w' fd, ((v, none) : World × Option Nat) = (w', some fd) → P w' fd) ∧ (∀ w', ((v, none) : World × Option Nat) = (w', none) → w'.socks = w.socks) := by
      intro P v hv
      exact ⟨fun w' fd h => absurd (congrArg Prod.snd h) (by simp), fun w' h => by have := congrArg Prod.fst h; simp only at this; subst this; exact hv⟩
    by_cases g1 : e.socketOk res.fam = true
    · by_cases g2 : e.flagsOk = true
      · simp only [g1, g2, Bool.not_true, Bool.false_eq_true, if_false]
        by_cases hs : (src.isSome || port ≠ 0) = true
        · simp only [ne_eq] at hs
          simp only [ne_eq, hs, if_true]
          by_cases g3 : e.reuseOk = true
          · simp only [g3, Bool.not_true, Bool.false_eq_true, if_false]
            cases hx : L.pton res.fam (src.getD (if res.fam = .v4 then "0.0.0.0".toList else "::".toList)) with
            | none => exact stop _ rfl
            | some n =>
              simp only
              by_cases hb : e.bindOk ⟨res.fam, n, 0, htons port⟩ = true
              · rw [if_pos hb]
                simp only
                rw [connectCall_head e w hw _ (by rfl), close_head w hw _ (by rfl)]
                by_cases hc : e.connectOk res = true
                · rw [if_pos ⟨rfl, hc⟩]
                  refine ⟨?_, fun w' h => absurd (congrArg Prod.snd h) (by simp)⟩
                  intro w' fd h
                  injection h with h1 h2
                  injection h2 with h2
                  subst h1 h2
                  refine ⟨hfr, _, rfl, rfl, rfl, rfl, rfl, ?_, ?_⟩
                  · intro h1 h2; subst h1 h2; exact absurd hs (by simp)
                  · intro _
                    refine ⟨_, rfl, rfl, hh.1, rfl, ?_, ?_⟩
                    · intro t ht; subst ht; exact hx
                    · intro h0
                      subst h0
                      simp only [Option.getD_none] at hx
                      cases hfam : res.fam with
                      | v4 => rw [hfam, if_pos rfl, hL.any4] at hx; injection hx with hx; exact hx.symm
                      | v6 => rw [hfam, if_neg (by decide), hL.any6] at hx; injection hx with hx; exact hx.symm
                · rw [if_neg (fun h => hc h.2)]; exact stop _ rfl
              · rw [if_neg hb]; exact stop _ rfl
          · simp only [Bool.not_eq_true] at g3
            simp only [g3, Bool.not_false, if_true]; exact stop _ rfl
        · simp only [ne_eq, Bool.not_eq_true] at hs
          simp only [ne_eq, hs, Bool.false_eq_true, if_false]
          by_cases hc : e.connectOk res = true
          · rw [if_pos (by simp [hc])]
            refine ⟨?_, fun w' h => absurd (congrArg Prod.snd h) (by simp)⟩
            intro w' fd h
            injection h with h1 h2
            injection h2 with h2
            subst h1 h2
            refine ⟨hfr, _, rfl, rfl, rfl, rfl, rfl, fun _ _ => rfl, ?_⟩
            intro hor
            rcases hor with h | h
            · cases src with
              | none => exact absurd rfl h
              | some t => exact absurd hs (by simp)
            · exact absurd hs (by simp [h])
          · rw [if_neg (by simp [hc])]; exact stop _ rfl
      · simp only [Bool.not_eq_true] at g2
        simp only [g1, g2, Bool.not_true, Bool.not_false, Bool.false_eq_true, if_false, if_true]; exact stop _ rfl
    · simp only [Bool.not_eq_true] at g1
      simp only [g1, Bool.not_false, if_true]; exact stop _ rfl

example : (startConnect numLib freeEnv ⟨[], 3⟩ (some "7".toList) 4000 ⟨.v4, 9, 0, (16, 238)⟩).1.socks =
    [⟨3, .v4, true, false, some ⟨.v4, 7, 0, (15, 160)⟩, false, some ⟨.v4, 9, 0, (16, 238)⟩⟩] := by decide +kernel

/-- If the operating system grants it, a connection from a local address of the family of the peer, or only from a local port, is started. -/
theorem home_available (L : Lib) (hL : L.Good) (e : Env) (he : Granting e) (w : World) (hw : Fresh w) (src : Option Text) (port : Nat) (res : Inet) (hres : res.Ok)
    (hs : ∀ t, src = some t → ∃ n, L.pton res.fam t = some n) : (startConnect L e w src port res).2.isSome = true := by
  obtain ⟨h1, h2, h3, h4, h5, h6, h7⟩ := he
  simp only [startConnect, saddr2str_some L hL res hres.1, h1, h2, h4, Bool.not_true, Bool.false_eq_true, if_false, socket]
  rw [upd_head w hw _ (by rfl)]
  rw [bindInet_head L e w hw _ (by rfl) (w.next + 1) src port res.fam rfl]
  rw [connectCall_head e w hw _ (by rfl)]
  have hn : ∃ n, L.pton res.fam (src.getD (if res.fam = .v4 then "0.0.0.0".toList else "::".toList)) = some n := by
    cases src with
    | some t => exact hs t rfl
    | none =>
      refine ⟨0, ?_⟩
      cases hfam : res.fam with
      | v4 => exact hL.any4
      | v6 => exact hL.any6
  obtain ⟨n, hn⟩ := hn
  simp only [hn, h5, if_true]
  rw [connectCall_head e w hw _ (by rfl)]
  simp only [h7, and_self, if_true]
  split <;> rfl

example : (startConnect numLib freeEnv ⟨[], 3⟩ none 4000 ⟨.v6, 9, 2, (16, 238)⟩).2 = some 3 ∧
    (startConnect numLib freeEnv ⟨[], 3⟩ (some "7".toList) 0 ⟨.v6, 9, 2, (16, 238)⟩) = (⟨[], 4⟩, none) := by decide +kernel

end Verif.Props
