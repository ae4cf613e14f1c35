import Verif.Lemmas.ConnRes

/-! # Sockets and memory of connections -/

namespace Verif.Props

open Verif.ConnRes

/-- C168: closing a session releases all that it owns exactly once, no matter how it was established. -/
theorem closing_releases (lib : Lib) (live : List Tok) (hl : Others live) :
    (∀ n e, Closes lib live (connectInout lib n e live)) ∧ (∀ e, Closes lib live (connectUnix lib e live)) ∧
      (∀ e, Closes lib live (connectSsh lib e live)) ∧ (∀ e, Closes lib live (connectTls lib e live)) ∧
      (∀ e, e.hasHost = true → Closes lib live (connectLibssh lib e (some .sock) (.ssh :: .sock :: live))) ∧
      (∀ e, e.hasHost = false → e.connected = false → Closes lib live (connectLibssh lib e none (.ssh :: live))) ∧
      (∀ e, Closes lib live (acceptChSsh lib e (.sock :: live))) ∧ (∀ e d, Closes lib live (acceptChTls lib e d (.sock :: live))) ∧
      (∀ ka n h t, Closes lib live (accept lib ka n h t live)) := by
  refine ⟨fun n e => (inout_all lib n e live).closes, fun e => ?_, fun e => (ssh_all lib e live).closes, fun e => (tls_any lib e live).2,
    fun e h => (libssh_any lib e h live).2, fun e h hc => (libssh_new_any lib e h hc live).2, fun e => (chssh_any lib e live).2,
    fun e d => (chtls_any lib e d live).2, fun ka n h t => ?_⟩
  · cases hp : e.pw with
    | true => exact (unix_all lib e hp live).closes
    | false => exact (unix_leak lib e hp live).2
  · by_cases hb : lib = .mbedtls ∧ ∃ e, t = .tls e ∧ e.sess = false
    · obtain ⟨hb, e, ht, hs⟩ := hb
      subst hb ht
      exact accept_mbedtls_none ka n h e hs live hl
    · refine (accept_sock lib ka n h t (fun hm e he => ?_) live hl).2.1
      cases hs : e.sess with
      | true => rfl
      | false => exact absurd ⟨hm, e, he, hs⟩ hb

/-- A connection where all succeeds. -/
def connectGood : Tail := ⟨.created, true, true⟩

/-- A TLS session where all succeeds. -/
def tlsGood : TlsEnv := ⟨true, true, true, true, some true, true, true, true, true, true, true, true⟩

example : connectTls .mbedtls ⟨true, true, true, tlsGood, true, connectGood⟩ [.other 7] =
    some (some ⟨.tls, some .sock, none, some .tls, some .cfg, ⟨some .cert, some .pkey, some .store, some .crl, some .rng, some .sockPtr⟩,
      some .ipHost, some .user, none, some .ctx, false⟩,
      [.user, .ctx, .tls, .sockPtr, .rng, .crl, .pkey, .cert, .store, .cfg, .ipHost, .sock, .session, .other 7]) := by decide

example : Closes .mbedtls [.other 7] (connectTls .mbedtls ⟨true, true, true, tlsGood, true, connectGood⟩ [.other 7]) :=
  (closing_releases .mbedtls [.other 7] (by simp [Others])).2.2.2.1 _

/-- C168: with all calls succeeding there is a session, over each transport and with each TLS library. -/
theorem connecting_succeeds (lib : Lib) (live : List Tok) (e : Tail) (he : e.ctx ≠ .failed ∧ e.hello = true ∧ e.fill = true) (named pw : Bool)
    (hp : named = true ∨ pw = true) (t : TlsEnv) (ht : Ready t ∧ t.peer = true ∧ t.up = true ∧ t.versions = true) :
    Up (connectInout lib true e live) ∧ Up (connectUnix lib ⟨true, true, true, true, true, true, true, e⟩ live) ∧
      Up (connectSsh lib ⟨named, pw, true, true, true, true, true, true, true, e⟩ live) ∧ Up (connectTls lib ⟨true, true, true, t, true, e⟩ live) ∧
      Up (acceptChTls lib ⟨true, true, true, t, true, e⟩ true (.sock :: live)) ∧ Up (accept lib true true true (.tls t) live) ∧
      Up (accept lib true true true (.ssh ⟨true, true, true, true, true⟩) live) ∧ Up (accept lib true true true (.unix true true true) live) := by
  obtain ⟨x, h, f⟩ := e
  obtain ⟨t1, t2, t3, t4, t5, t6, t7, t8, t9, t10, t11, t12⟩ := t
  obtain ⟨⟨h1, h2, h3, h4, h5, h6, h7, h8, h9⟩, h10, h11, h12⟩ := ht
  obtain ⟨g1, g2, g3⟩ := he
  dsimp only at *
  subst h1 h2 h3 h4 h6 h7 h8 h9 h10 h11 h12 g2 g3
  rcases t5 with _ | t5
  · cases h5
  clear h5
  cases x with
  | failed => exact absurd rfl g1
  | given =>
    refine ⟨⟨_, _, rfl⟩, ⟨_, _, rfl⟩, ?_, ?_, ?_, ?_, ⟨_, _, rfl⟩, ⟨_, _, rfl⟩⟩
    · rcases hp with hp | hp <;> subst hp
      · exact ⟨_, _, rfl⟩
      · cases named <;> exact ⟨_, _, rfl⟩
    · cases lib <;> cases t5 <;> exact ⟨_, _, rfl⟩
    · cases lib <;> cases t5 <;> exact ⟨_, _, rfl⟩
    · cases lib <;> cases t5 <;> exact ⟨_, _, rfl⟩
  | created =>
    refine ⟨⟨_, _, rfl⟩, ⟨_, _, rfl⟩, ?_, ?_, ?_, ?_, ⟨_, _, rfl⟩, ⟨_, _, rfl⟩⟩
    · rcases hp with hp | hp <;> subst hp
      · exact ⟨_, _, rfl⟩
      · cases named <;> exact ⟨_, _, rfl⟩
    · cases lib <;> cases t5 <;> exact ⟨_, _, rfl⟩
    · cases lib <;> cases t5 <;> exact ⟨_, _, rfl⟩
    · cases lib <;> cases t5 <;> exact ⟨_, _, rfl⟩

example : Up (connectSsh .openssl ⟨false, true, true, true, true, true, true, true, true, connectGood⟩ []) :=
  (connecting_succeeds .openssl [] connectGood (by decide) false true (Or.inr rfl) tlsGood
    ⟨by unfold Ready; decide, rfl, rfl, rfl⟩).2.2.1

/-- C169: an attempt to connect over SSH or over given descriptors that fails leaves nothing behind, whichever step fails. -/
theorem failed_connect_releases (lib : Lib) (live : List Tok) :
    (∀ n e, Releases live (connectInout lib n e live) ∧ Once (connectInout lib n e live)) ∧
      ∀ e, Releases live (connectSsh lib e live) ∧ Once (connectSsh lib e live) :=
  ⟨fun n e => ⟨(inout_all lib n e live).releases, (inout_all lib n e live).once⟩, fun e => ⟨(ssh_all lib e live).releases, (ssh_all lib e live).once⟩⟩

example : connectSsh .openssl ⟨true, false, true, true, true, true, true, true, true, ⟨.created, false, true⟩⟩ [.other 7] = some (none, [.other 7]) := by decide

example : connectSsh .openssl ⟨true, false, true, true, true, true, true, false, false, connectGood⟩ [.other 7] = some (none, [.other 7]) := by decide

/-- C170: for the other transports this holds unless the own user is unknown (UNIX), the TLS library does not take certificate and key (OpenSSL), the
host name or the handshake fails (TLS), the SSH session is connected already (libssh), or a Call Home connection fails at the first calls. -/
theorem failed_connect_releases_partial (lib : Lib) (live : List Tok) :
    (∀ e, e.pw = true → Releases live (connectUnix lib e live)) ∧
      (∀ e, (lib = .openssl → e.tls.setup = true) → e.tls.peer = true → e.tls.up = true → Releases live (connectTls lib e live)) ∧
      (∀ e, e.newSess = true → e.hasHost = true → e.connected = false → (e.hasUser = true ∨ ((e.named = true ∨ e.pw = true) ∧ e.dupUser = true)) →
        Releases live (connectLibssh lib e (some .sock) (.ssh :: .sock :: live))) ∧
      (∀ e, e.newSess = true → e.hasHost = false → e.connected = false → (e.hasUser = true ∨ ((e.named = true ∨ e.pw = true) ∧ e.dupUser = true)) →
        Releases live (connectLibssh lib e none (.ssh :: live))) ∧
      (∀ e, e.hostOpt = true → (e.named = true ∨ e.pw = true) → e.rest.newSess = true → Releases live (acceptChSsh lib e (.sock :: live))) ∧
      ∀ e d, e.newSess = true → (lib = .openssl → e.tls.setup = true) → e.tls.peer = true → e.tls.up = true →
        Releases live (acceptChTls lib e d (.sock :: live)) :=
  ⟨fun e hp => (unix_all lib e hp live).releases, fun e hs hp hu => (tls_all lib e hs hp hu live).releases,
    fun e hn hh hc hu => (libssh_fd lib e hn hh hc hu live).releases, fun e hn hh hc hu => (libssh_new lib e hn hh hc hu live).releases,
    fun e hh hu hn => (chssh_all lib e hh hu hn live).releases, fun e d hn hs hp hu => (chtls_all lib e d hn hs hp hu live).releases⟩

example : connectTls .openssl ⟨true, true, true, tlsGood, true, ⟨.given, true, false⟩⟩ [.other 7] = some (none, [.other 7]) := by decide

example : acceptChSsh .openssl ⟨true, true, true, false, ⟨true, true, true, true, true, true, false, true, true, true, false, true, connectGood⟩⟩ [.sock, .other 7] =
    some (none, [.other 7]) := by decide

/-- C170 is false as a whole: each TLS connection whose handshake is refused leaves its socket open, with both libraries, also for Call Home. -/
theorem failed_tls_connect_releases_false (lib : Lib) (live : List Tok) :
    (∀ e : ConnTlsEnv, e.opts = true → e.newSess = true → e.sock = true → Ready e.tls → (e.tls.peer = false ∨ e.tls.up = false) →
      connectTls lib e live = some (none, .sock :: live)) ∧
      ∀ (e : ConnTlsEnv) d, e.newSess = true → Ready e.tls → (e.tls.peer = false ∨ e.tls.up = false) →
        acceptChTls lib e d (.sock :: live) = some (none, .sock :: live) :=
  ⟨fun e ho hn hk hr hp => tls_handshake lib e ho hn hk hr hp live, fun e d hn hr hp => chtls_handshake lib e d hn hr hp live⟩

example : connectTls .openssl ⟨true, true, true, { tlsGood with up := false }, true, connectGood⟩ [] = some (none, [.sock]) :=
  (failed_tls_connect_releases_false .openssl []).1 _ rfl rfl rfl (by unfold Ready; decide) (Or.inr rfl)

/-- C170 is false: more is left behind in these cases. The certificate and the key that OpenSSL does not take; the buffer of the user database (UNIX); the
host, the user name and the socket (libssh); the socket of a Call Home connection. -/
theorem failed_connect_releases_false :
    connectTls .openssl ⟨true, true, true, { tlsGood with setup := false }, true, connectGood⟩ [] = some (none, [.crl, .pkey, .cert, .store]) ∧
      connectUnix .openssl ⟨true, true, true, true, true, false, true, connectGood⟩ [] = some (none, [.buf]) ∧
      connectLibssh .openssl ⟨true, false, true, true, true, false, false, false, false, true, true, true, connectGood⟩ none [.ssh] =
        some (none, [.buf, .ipHost, .sock]) ∧
      acceptChSsh .openssl ⟨true, true, false, false, ⟨true, true, true, true, true, true, false, true, true, true, true, true, connectGood⟩⟩ [.sock] =
        some (none, [.buf, .sock]) ∧
      acceptChTls .openssl ⟨true, false, true, tlsGood, true, connectGood⟩ true [.sock] = some (none, [.sock]) := by decide

/-- C170 is false: host and user name of an SSH session that is connected already are left behind whenever there is no NETCONF session. -/
theorem failed_libssh_connect_releases_false (lib : Lib) (e : LibsshEnv) (hn : e.newSess = true) (hh : e.hasHost = true) (hu : e.hasUser = true)
    (hc : e.connected = true) (live : List Tok) (hf : ¬ Up (connectLibssh lib e (some .sock) (.ssh :: .sock :: live))) :
    connectLibssh lib e (some .sock) (.ssh :: .sock :: live) = some (none, .user :: .host :: live) :=
  libssh_connected lib e hn hh hu hc live hf

example : connectLibssh .openssl ⟨true, true, true, true, true, true, true, true, true, true, true, false, connectGood⟩ (some .sock) [.ssh, .sock] =
    some (none, [.user, .host]) := by decide

/-- C171: no connecting function frees or closes anything twice, whichever step fails. -/
theorem connecting_frees_once (lib : Lib) (live : List Tok) :
    (∀ n e, Once (connectInout lib n e live)) ∧ (∀ e, Once (connectUnix lib e live)) ∧ (∀ e, Once (connectSsh lib e live)) ∧
      (∀ e, Once (connectTls lib e live)) ∧ (∀ e, e.hasHost = true → Once (connectLibssh lib e (some .sock) (.ssh :: .sock :: live))) ∧
      (∀ e, e.hasHost = false → e.connected = false → Once (connectLibssh lib e none (.ssh :: live))) ∧
      (∀ e, Once (acceptChSsh lib e (.sock :: live))) ∧ ∀ e d, Once (acceptChTls lib e d (.sock :: live)) := by
  refine ⟨fun n e => (inout_all lib n e live).once, fun e => ?_, fun e => (ssh_all lib e live).once, fun e => (tls_any lib e live).1,
    fun e h => (libssh_any lib e h live).1, fun e h hc => (libssh_new_any lib e h hc live).1, fun e => (chssh_any lib e live).1,
    fun e d => (chtls_any lib e d live).1⟩
  cases hp : e.pw with
  | true => exact (unix_all lib e hp live).once
  | false => exact (unix_leak lib e hp live).1

example : connectTls .mbedtls ⟨true, true, true, { tlsGood with sockPtr := false }, true, connectGood⟩ [.other 7] = some (none, [.other 7]) := by decide

/-- C172: a client that is not accepted has its socket closed exactly once, and all else is released, except that in the cases left out memory remains:
a user that is unknown (UNIX), a certificate or key that the TLS library does not take, memory that cannot be allocated (Mbed TLS). -/
theorem rejected_releases_partial (live : List Tok) :
    (∀ lib ka n h e, Clean lib live (accept lib ka n h (.ssh e) live)) ∧ (∀ lib ka n h u d, Clean lib live (accept lib ka n h (.unix u true d) live)) ∧
      (∀ lib ka n h, Clean lib live (accept lib ka n h .other live)) ∧
      (∀ ka n h e, e.setup = true → Clean .openssl live (accept .openssl ka n h (.tls e) live)) ∧
      ∀ ka n h e, e.rng = true → e.sockPtr = true → e.setup = true → e.sess = true → Clean .mbedtls live (accept .mbedtls ka n h (.tls e) live) :=
  ⟨fun lib ka n h e => accept_ssh lib ka n h e live, fun lib ka n h u d => accept_unix lib ka n h u true d rfl live,
    fun lib ka n h => accept_other lib ka n h live, fun ka n h e hs => accept_openssl ka n h e hs live,
    fun ka n h e hr hk hs hn => accept_mbedtls ka n h e hr hk hs hn live⟩

example : accept .openssl true true true (.tls { tlsGood with up := false }) [.other 7] = some (none, [.other 7]) := by decide

example : accept .mbedtls true true false (.tls tlsGood) [.other 7] = some (none, [.other 7]) := by decide

/-- C172: the socket of a client that is not accepted is closed exactly once, whichever step fails; left out is Mbed TLS without memory for a TLS
session. -/
theorem rejected_socket_closed_partial (lib : Lib) (ka n h : Bool) (t : Trans) (hn : lib = .mbedtls → ∀ e, t = .tls e → e.sess = true) (live : List Tok)
    (hl : Others live) : Once (accept lib ka n h t live) ∧ ClosesSock (accept lib ka n h t live) :=
  ⟨(accept_sock lib ka n h t hn live hl).1, (accept_sock lib ka n h t hn live hl).2.2⟩

example : accept .openssl true true true (.tls { tlsGood with setup := false }) [.other 7] = some (none, [.crl, .pkey, .cert, .store, .other 7]) := by decide

example : ClosesSock (accept .openssl true true true (.tls { tlsGood with setup := false }) [.other 7]) :=
  (rejected_socket_closed_partial .openssl true true true _ (fun h => nomatch h) [.other 7] (by simp [Others])).2

/-- C172 is false as a whole: with Mbed TLS, the socket is closed twice if the TLS session cannot be allocated; a certificate or key that is not taken
stays allocated, with both libraries. -/
theorem rejected_releases_false :
    (∀ (h : Bool) (e : TlsEnv) (live : List Tok), Ready { e with sess := true } → e.versions = true → e.sess = false → Others live →
      accept .mbedtls true true h (.tls e) live = none) ∧
      accept .openssl true true true (.tls { tlsGood with setup := false }) [] = some (none, [.crl, .pkey, .cert, .store]) ∧
      accept .mbedtls true true true (.tls { tlsGood with setup := false }) [] = some (none, [.sockPtr, .rng, .crl, .pkey, .cert, .store]) ∧
      accept .mbedtls true true true (.tls { tlsGood with sockPtr := false }) [] = some (none, [.rng]) ∧
      accept .openssl true true true (.unix true false true) [] = some (none, [.buf]) :=
  ⟨fun h e live hr hv hs hl => accept_twice h e hr hv hs live hl, by decide, by decide, by decide, by decide⟩

example : accept .mbedtls true true true (.tls { tlsGood with sess := false }) [.other 7] = none :=
  rejected_releases_false.1 true _ [.other 7] (by unfold Ready; decide) rfl rfl (by simp [Others])

end Verif.Props
