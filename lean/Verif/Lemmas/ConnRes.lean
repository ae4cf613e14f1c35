import Verif.Spec.ConnRes

/-! # Lemmas about the sockets and the memory of a connection -/

namespace Verif.ConnRes

theorem Others.sock {live : List Tok} (h : Others live) : Tok.sock ∉ live := fun hm => by
  obtain ⟨n, hn⟩ := h _ hm
  cases hn

theorem Clean.closes {lib : Lib} {live : List Tok} {o : Out} (h : Clean lib live o) : Closes lib live o := fun s l he => by
  subst he
  exact h

theorem Clean.releases {lib : Lib} {live : List Tok} {o : Out} (h : Clean lib live o) : Releases live o := fun l he => by
  subst he
  exact h

theorem Clean.once {lib : Lib} {live : List Tok} {o : Out} (h : Clean lib live o) : Once o := fun he => by
  subst he
  exact h

/-- Evaluate a run. -/
local macro "crun" : tactic =>
  `(tactic| simp [connectInout, connectUnix, unixTail, connectSsh, sshTail, connectLibssh, libsshUser, libsshTail, acceptChSsh, connectTls, tlsNew,
    tlsNewTail, tlsFail, initCtx, setupCtx, TlsEnv.loaded, TlsEnv.crlPtr, connTlsTail, acceptChTls, accept, acceptTrans, acceptSsh, acceptTls, acceptUnix,
    accFail, newCtx, helloFill, fail, Clean, Once, Closes, Sess.frees, Sess.transport, Sess.tlsFd, TlsCtx.frees, freeAll, *])

theorem inout_all (lib : Lib) (n : Bool) (e : Tail) (live : List Tok) : Clean lib live (connectInout lib n e live) := by
  obtain ⟨c, h, f⟩ := e
  cases n
  · crun
  cases c <;> cases h <;> cases f <;> crun

theorem unix_all (lib : Lib) (e : UnixEnv) (hp : e.pw = true) (live : List Tok) : Clean lib live (connectUnix lib e live) := by
  obtain ⟨a, b, c, d, p, w, u, ⟨x, h, f⟩⟩ := e
  subst hp
  cases a
  · crun
  cases b
  · crun
  cases c
  · crun
  cases d
  · crun
  cases x <;> cases p <;> cases u <;> cases h <;> cases f <;> crun

/-- What is left behind by `nc_connect_unix` if the user is not found. -/
theorem unix_leak (lib : Lib) (e : UnixEnv) (hp : e.pw = false) (live : List Tok) :
    Once (connectUnix lib e live) ∧ Closes lib live (connectUnix lib e live) := by
  obtain ⟨a, b, c, d, p, w, u, ⟨x, h, f⟩⟩ := e
  subst hp
  cases a
  · crun
  cases b
  · crun
  cases c
  · crun
  cases d
  · crun
  cases x <;> cases p <;> crun

theorem ssh_all (lib : Lib) (e : SshEnv) (live : List Tok) : Clean lib live (connectSsh lib e live) := by
  obtain ⟨a, b, c, d, g, i, j, k, m, ⟨x, h, f⟩⟩ := e
  cases a <;> cases b <;> (cases c; · crun) <;> (cases d; · crun) <;> (cases g; · crun) <;> (cases i; · crun) <;> cases j <;> cases k <;>
    (cases m; · crun) <;> cases x <;> cases h <;> cases f <;> crun

/-- Cases of `nc_client_tls_session_new` one after another. -/
local macro "tcases" a:ident b:ident c:ident d:ident e:ident g:ident h:ident i:ident j:ident : tactic =>
  `(tactic| ((cases $a:ident; · crun) <;> (cases $b:ident; · crun) <;> (cases $c:ident; · crun) <;> (cases $d:ident; · crun) <;>
    (rcases $e:ident with _ | _ | _; · crun) <;> cases $g:ident <;> cases $h:ident <;> (first | (crun; done) | skip) <;> cases $i:ident <;>
    (first | (crun; done) | skip) <;> cases $j:ident <;> (first | (crun; done) | skip)))

theorem tls_all (lib : Lib) (e : ConnTlsEnv) (hs : lib = .openssl → e.tls.setup = true) (hp : e.tls.peer = true) (hu : e.tls.up = true) (live : List Tok) :
    Clean lib live (connectTls lib e live) := by
  obtain ⟨a, b, c, ⟨t1, t2, t3, t4, t5, t6, t7, t8, t9, t10, t11, t12⟩, d, ⟨x, h, f⟩⟩ := e
  dsimp only at hs hp hu
  subst hp hu
  cases lib
  · cases hs rfl
    (cases a; · crun) <;> (cases b; · crun) <;> (cases c; · crun) <;> tcases t1 t2 t3 t4 t5 t10 x h f <;> cases d <;> crun
  · (cases a; · crun) <;> (cases b; · crun) <;> (cases c; · crun) <;> tcases t1 t2 t3 t4 t5 t7 t8 t9 t10 <;> cases x <;> cases h <;> cases f <;> cases d <;> crun

theorem tls_any (lib : Lib) (e : ConnTlsEnv) (live : List Tok) : Once (connectTls lib e live) ∧ Closes lib live (connectTls lib e live) := by
  by_cases hp : e.tls.peer = true ∧ e.tls.up = true ∧ e.tls.setup = true
  · have h := tls_all lib e (fun _ => hp.2.2) hp.1 hp.2.1 live
    exact ⟨h.once, h.closes⟩
  obtain ⟨a, b, c, ⟨t1, t2, t3, t4, t5, t6, t7, t8, t9, t10, t11, t12⟩, d, ⟨x, h, f⟩⟩ := e
  dsimp only at hp
  cases lib
  · (cases a; · crun) <;> (cases b; · crun) <;> (cases c; · crun) <;> tcases t1 t2 t3 t4 t5 t9 t10 t11 t12 <;> exact absurd ⟨rfl, rfl, rfl⟩ hp
  · (cases a; · crun) <;> (cases b; · crun) <;> (cases c; · crun) <;> tcases t1 t2 t3 t4 t5 t7 t8 t9 t10 <;> (cases t11; · crun) <;> (cases t12; · crun) <;>
      exact absurd ⟨rfl, rfl, rfl⟩ hp

/-- All steps before the host name and the handshake succeed. -/
def Ready (e : TlsEnv) : Prop :=
  e.cfg = true ∧ e.store = true ∧ e.load = true ∧ e.check = true ∧ e.crl.isSome = true ∧ e.rng = true ∧ e.sockPtr = true ∧ e.setup = true ∧ e.sess = true

theorem tls_handshake (lib : Lib) (e : ConnTlsEnv) (ho : e.opts = true) (hn : e.newSess = true) (hk : e.sock = true) (hr : Ready e.tls)
    (hp : e.tls.peer = false ∨ e.tls.up = false) (live : List Tok) : connectTls lib e live = some (none, .sock :: live) := by
  obtain ⟨a, b, c, ⟨t1, t2, t3, t4, t5, t6, t7, t8, t9, t10, t11, t12⟩, d, ⟨x, h, f⟩⟩ := e
  obtain ⟨h1, h2, h3, h4, h5, h6, h7, h8, h9⟩ := hr
  dsimp only at *
  subst ho hn hk h1 h2 h3 h4 h6 h7 h8 h9
  rcases t5 with _ | t5
  · cases h5
  clear h5
  cases lib <;> cases t5 <;> (cases t11; · crun) <;> rcases hp with hp | hp <;> (try cases hp) <;> crun

theorem chtls_all (lib : Lib) (e : ConnTlsEnv) (dh : Bool) (hn : e.newSess = true) (hs : lib = .openssl → e.tls.setup = true) (hp : e.tls.peer = true)
    (hu : e.tls.up = true) (live : List Tok) : Clean lib live (acceptChTls lib e dh (.sock :: live)) := by
  obtain ⟨a, b, c, ⟨t1, t2, t3, t4, t5, t6, t7, t8, t9, t10, t11, t12⟩, d, ⟨x, h, f⟩⟩ := e
  dsimp only at hs hp hu hn
  subst hp hu hn
  cases lib
  · cases hs rfl
    tcases t1 t2 t3 t4 t5 t10 x h f <;> cases d <;> cases dh <;> crun
  · tcases t1 t2 t3 t4 t5 t7 t8 t9 t10 <;> cases x <;> cases h <;> cases f <;> cases d <;> cases dh <;> crun

theorem chtls_any (lib : Lib) (e : ConnTlsEnv) (dh : Bool) (live : List Tok) :
    Once (acceptChTls lib e dh (.sock :: live)) ∧ Closes lib live (acceptChTls lib e dh (.sock :: live)) := by
  by_cases hp : e.tls.peer = true ∧ e.tls.up = true ∧ e.tls.setup = true ∧ e.newSess = true
  · have h := chtls_all lib e dh hp.2.2.2 (fun _ => hp.2.2.1) hp.1 hp.2.1 live
    exact ⟨h.once, h.closes⟩
  obtain ⟨a, b, c, ⟨t1, t2, t3, t4, t5, t6, t7, t8, t9, t10, t11, t12⟩, d, ⟨x, h, f⟩⟩ := e
  dsimp only at hp
  cases lib
  · (cases b; · crun) <;> tcases t1 t2 t3 t4 t5 t9 t10 t11 t12 <;> exact absurd ⟨rfl, rfl, rfl, rfl⟩ hp
  · (cases b; · crun) <;> tcases t1 t2 t3 t4 t5 t7 t8 t9 t10 <;> (cases t11; · crun) <;> (cases t12; · crun) <;>
      exact absurd ⟨rfl, rfl, rfl, rfl⟩ hp

theorem chtls_handshake (lib : Lib) (e : ConnTlsEnv) (dh : Bool) (hn : e.newSess = true) (hr : Ready e.tls)
    (hp : e.tls.peer = false ∨ e.tls.up = false) (live : List Tok) : acceptChTls lib e dh (.sock :: live) = some (none, .sock :: live) := by
  obtain ⟨a, b, c, ⟨t1, t2, t3, t4, t5, t6, t7, t8, t9, t10, t11, t12⟩, d, ⟨x, h, f⟩⟩ := e
  obtain ⟨h1, h2, h3, h4, h5, h6, h7, h8, h9⟩ := hr
  dsimp only at *
  subst hn h1 h2 h3 h4 h6 h7 h8 h9
  rcases t5 with _ | t5
  · cases h5
  clear h5
  cases lib <;> cases t5 <;> (cases t11; · crun) <;> rcases hp with hp | hp <;> (try cases hp) <;> crun

/-- An SSH session that is not connected yet, with host and descriptor set. -/
theorem libssh_fd (lib : Lib) (e : LibsshEnv) (hn : e.newSess = true) (hh : e.hasHost = true) (hc : e.connected = false)
    (hu : e.hasUser = true ∨ ((e.named = true ∨ e.pw = true) ∧ e.dupUser = true)) (live : List Tok) :
    Clean lib live (connectLibssh lib e (some .sock) (.ssh :: .sock :: live)) := by
  obtain ⟨a1, a2, a3, a4, a5, a6, a7, a8, a9, a10, a11, a12, ⟨x, h, f⟩⟩ := e
  dsimp only at hn hh hc hu
  subst hn hh hc
  cases a6
  · rcases hu with hu | ⟨hu | hu, hd⟩
    · cases hu
    · subst hu hd
      (cases a11; · crun) <;> (cases a12; · crun) <;> cases x <;> cases h <;> cases f <;> crun
    · subst hu hd
      cases a8 <;> (cases a11; · crun) <;> (cases a12; · crun) <;> cases x <;> cases h <;> cases f <;> crun
  · (cases a11; · crun) <;> (cases a12; · crun) <;> cases x <;> cases h <;> cases f <;> crun

theorem chssh_all (lib : Lib) (e : ChSshEnv) (hh : e.hostOpt = true) (hu : e.named = true ∨ e.pw = true) (hn : e.rest.newSess = true) (live : List Tok) :
    Clean lib live (acceptChSsh lib e (.sock :: live)) := by
  have hr := libssh_fd lib { e.rest with hasHost := true, hasUser := true, connected := false } hn rfl rfl (Or.inl rfl) live
  obtain ⟨a, b, c, d, r⟩ := e
  dsimp only at hh hu
  subst hh
  cases a
  · crun
  simp only [acceptChSsh, Bool.not_true, Bool.false_eq_true, if_false]
  rw [if_neg (by rcases hu with hu | hu <;> simp [hu])]
  exact hr

/-- An SSH session without a host: the library connects to it. -/
theorem libssh_new (lib : Lib) (e : LibsshEnv) (hn : e.newSess = true) (hh : e.hasHost = false) (hc : e.connected = false)
    (hu : e.hasUser = true ∨ ((e.named = true ∨ e.pw = true) ∧ e.dupUser = true)) (live : List Tok) :
    Clean lib live (connectLibssh lib e none (.ssh :: live)) := by
  obtain ⟨a1, a2, a3, a4, a5, a6, a7, a8, a9, a10, a11, a12, ⟨x, h, f⟩⟩ := e
  dsimp only at hn hh hc hu
  subst hn hh hc
  (cases a3; · crun) <;> (cases a4; · crun) <;> (cases a5; · crun)
  cases a6
  · rcases hu with hu | ⟨hu | hu, hd⟩
    · cases hu
    · subst hu hd
      (cases a11; · crun) <;> (cases a12; · crun) <;> cases x <;> cases h <;> cases f <;> crun
    · subst hu hd
      cases a8 <;> (cases a11; · crun) <;> (cases a12; · crun) <;> cases x <;> cases h <;> cases f <;> crun
  · (cases a11; · crun) <;> (cases a12; · crun) <;> cases x <;> cases h <;> cases f <;> crun

theorem libssh_any (lib : Lib) (e : LibsshEnv) (hh : e.hasHost = true) (live : List Tok) :
    Once (connectLibssh lib e (some .sock) (.ssh :: .sock :: live)) ∧ Closes lib live (connectLibssh lib e (some .sock) (.ssh :: .sock :: live)) := by
  by_cases hf : e.newSess = true ∧ e.connected = false ∧ (e.hasUser = true ∨ ((e.named = true ∨ e.pw = true) ∧ e.dupUser = true))
  · have h := libssh_fd lib e hf.1 hh hf.2.1 hf.2.2 live
    exact ⟨h.once, h.closes⟩
  obtain ⟨a1, a2, a3, a4, a5, a6, a7, a8, a9, a10, a11, a12, ⟨x, h, f⟩⟩ := e
  dsimp only at hh hf
  subst hh
  cases a1
  · crun
  cases a7
  · cases a6
    · cases a8
      · cases a9
        · crun
        · cases a10
          · crun
          · simp at hf
      · cases a10
        · crun
        · simp at hf
    · simp at hf
  · clear hf
    cases a6 <;> (cases a12; · crun) <;> cases x <;> cases h <;> cases f <;> crun

theorem libssh_new_any (lib : Lib) (e : LibsshEnv) (hh : e.hasHost = false) (hc : e.connected = false) (live : List Tok) :
    Once (connectLibssh lib e none (.ssh :: live)) ∧ Closes lib live (connectLibssh lib e none (.ssh :: live)) := by
  by_cases hf : e.newSess = true ∧ (e.hasUser = true ∨ ((e.named = true ∨ e.pw = true) ∧ e.dupUser = true))
  · have h := libssh_new lib e hf.1 hh hc hf.2 live
    exact ⟨h.once, h.closes⟩
  obtain ⟨a1, a2, a3, a4, a5, a6, a7, a8, a9, a10, a11, a12, ⟨x, h, f⟩⟩ := e
  dsimp only at hh hc hf
  subst hh hc
  cases a1
  · crun
  (cases a3; · crun) <;> (cases a4; · crun) <;> (cases a5; · crun)
  cases a6
  · cases a8
    · cases a9
      · crun
      · cases a10
        · crun
        · simp at hf
    · cases a10
      · crun
      · simp at hf
  · simp at hf

theorem chssh_any (lib : Lib) (e : ChSshEnv) (live : List Tok) :
    Once (acceptChSsh lib e (.sock :: live)) ∧ Closes lib live (acceptChSsh lib e (.sock :: live)) := by
  have hr := libssh_any lib { e.rest with hasHost := true, hasUser := true, connected := false } rfl live
  obtain ⟨a, b, c, d, r⟩ := e
  cases a
  · crun
  cases b
  · crun
  cases c
  · cases d
    · crun
    · exact hr
  · exact hr

/-- An SSH session that is connected already: host and user are left behind. -/
theorem libssh_connected (lib : Lib) (e : LibsshEnv) (hn : e.newSess = true) (hh : e.hasHost = true) (hu : e.hasUser = true) (hc : e.connected = true) (live : List Tok)
    (hf : ¬ Up (connectLibssh lib e (some .sock) (.ssh :: .sock :: live))) :
    connectLibssh lib e (some .sock) (.ssh :: .sock :: live) = some (none, .user :: .host :: live) := by
  obtain ⟨a1, a2, a3, a4, a5, a6, a7, a8, a9, a10, a11, a12, ⟨x, h, f⟩⟩ := e
  dsimp only at hn hh hu hc
  subst hn hh hu hc
  (cases a12; · crun) <;> cases x <;> cases h <;> cases f <;> first | (crun; done) | exact absurd ⟨_, _, rfl⟩ hf

theorem accept_ssh (lib : Lib) (ka n h : Bool) (e : AccSshEnv) (live : List Tok) : Clean lib live (accept lib ka n h (.ssh e) live) := by
  obtain ⟨a, b, c, d, u⟩ := e
  (cases ka; · crun) <;> (cases n; · crun) <;> (cases a; · crun) <;> (cases b; · crun) <;> (cases c; · crun) <;> (cases d; · crun) <;> cases u <;> cases h <;>
    crun

theorem accept_unix (lib : Lib) (ka n h u p d : Bool) (hp : p = true) (live : List Tok) : Clean lib live (accept lib ka n h (.unix u p d) live) := by
  subst hp
  (cases ka; · crun) <;> (cases n; · crun) <;> (cases u; · crun) <;> cases d <;> cases h <;> crun

theorem accept_unix_any (lib : Lib) (ka n h u p d : Bool) (live : List Tok) (hl : Others live) :
    Once (accept lib ka n h (.unix u p d) live) ∧ Closes lib live (accept lib ka n h (.unix u p d) live) ∧
      ClosesSock (accept lib ka n h (.unix u p d) live) := by
  have hk := hl.sock
  simp only [ClosesSock]
  (cases ka; · crun) <;> (cases n; · crun) <;> (cases u; · crun) <;> (cases p; · crun) <;> cases d <;> cases h <;> crun

theorem accept_other (lib : Lib) (ka n h : Bool) (live : List Tok) : Clean lib live (accept lib ka n h .other live) := by
  cases ka <;> cases n <;> crun

theorem accept_openssl (ka n h : Bool) (e : TlsEnv) (hs : e.setup = true) (live : List Tok) : Clean .openssl live (accept .openssl ka n h (.tls e) live) := by
  obtain ⟨t1, t2, t3, t4, t5, t6, t7, t8, t9, t10, t11, t12⟩ := e
  dsimp only at hs
  subst hs
  (cases ka; · crun) <;> (cases n; · crun) <;> tcases t1 t2 t3 t4 t5 t6 t10 t12 h

theorem accept_mbedtls (ka n h : Bool) (e : TlsEnv) (hr : e.rng = true) (hk : e.sockPtr = true) (hs : e.setup = true) (hn : e.sess = true)
    (live : List Tok) : Clean .mbedtls live (accept .mbedtls ka n h (.tls e) live) := by
  obtain ⟨t1, t2, t3, t4, t5, t6, t7, t8, t9, t10, t11, t12⟩ := e
  dsimp only at hr hk hs hn
  subst hs hr hk hn
  (cases ka; · crun) <;> (cases n; · crun) <;> tcases t1 t2 t3 t4 t5 t6 t12 h t8

/-- The socket is closed once unless the TLS session cannot be allocated (with Mbed TLS). -/
theorem accept_tls_sock (lib : Lib) (ka n h : Bool) (e : TlsEnv) (hn : lib = .mbedtls → e.sess = true) (live : List Tok) (hl : Others live) :
    Once (accept lib ka n h (.tls e) live) ∧ Closes lib live (accept lib ka n h (.tls e) live) ∧ ClosesSock (accept lib ka n h (.tls e) live) := by
  have hk := hl.sock
  obtain ⟨t1, t2, t3, t4, t5, t6, t7, t8, t9, t10, t11, t12⟩ := e
  dsimp only at hn
  simp only [ClosesSock]
  cases lib
  · (cases ka; · crun) <;> (cases n; · crun) <;> tcases t1 t2 t3 t4 t5 t6 t9 t10 t12 <;> cases h <;> crun
  · cases hn rfl
    (cases ka; · crun) <;> (cases n; · crun) <;> tcases t1 t2 t3 t4 t5 t6 t7 t8 t9 <;> cases t12 <;> cases h <;> crun

/-- Whatever the transport, the socket is closed once unless the TLS session cannot be allocated (with Mbed TLS). -/
theorem accept_sock (lib : Lib) (ka n h : Bool) (t : Trans) (hn : lib = .mbedtls → ∀ e, t = .tls e → e.sess = true) (live : List Tok) (hl : Others live) :
    Once (accept lib ka n h t live) ∧ Closes lib live (accept lib ka n h t live) ∧ ClosesSock (accept lib ka n h t live) := by
  cases t with
  | ssh e =>
    have hc := accept_ssh lib ka n h e live
    exact ⟨hc.once, hc.closes, fun l he => by rw [hc.releases l he]; exact hl.sock⟩
  | tls e => exact accept_tls_sock lib ka n h e (fun hb => hn hb e rfl) live hl
  | unix u p d => exact accept_unix_any lib ka n h u p d live hl
  | other =>
    have hc := accept_other lib ka n h live
    exact ⟨hc.once, hc.closes, fun l he => by rw [hc.releases l he]; exact hl.sock⟩

/-- Without a TLS session there is no session. -/
theorem accept_mbedtls_none (ka n h : Bool) (e : TlsEnv) (hs : e.sess = false) (live : List Tok) (hl : Others live) :
    Closes .mbedtls live (accept .mbedtls ka n h (.tls e) live) := by
  have hk := hl.sock
  obtain ⟨t1, t2, t3, t4, t5, t6, t7, t8, t9, t10, t11, t12⟩ := e
  dsimp only at hs
  subst hs
  (cases ka; · crun) <;> (cases n; · crun) <;> tcases t1 t2 t3 t4 t5 t6 t7 t8 t9

theorem accept_twice (h : Bool) (e : TlsEnv) (hr : Ready { e with sess := true }) (hv : e.versions = true) (hs : e.sess = false) (live : List Tok)
    (hl : Others live) : accept .mbedtls true true h (.tls e) live = none := by
  have hk := hl.sock
  obtain ⟨t1, t2, t3, t4, t5, t6, t7, t8, t9, t10, t11, t12⟩ := e
  obtain ⟨h1, h2, h3, h4, h5, h6, h7, h8, h9⟩ := hr
  dsimp only at *
  subst h1 h2 h3 h4 h6 h7 h8 hv hs
  rcases t5 with _ | _ | _
  · cases h5
  · crun
  · crun

end Verif.ConnRes
