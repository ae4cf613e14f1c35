import Verif.Lemmas.TransCfg

/-! # Parameters of the transport given to the libraries -/

namespace Verif.Props

open Verif.TransCfg

/-- C173: with OpenSSL, a connection has a version between the lowest and the highest configured one and, if the library takes the list, a cipher suite that
is configured. -/
theorem tls_parameters_partial (s : Support) (m : BitVec 32) (hm : ∀ i, m.getLsbD i = true → i ≤ 3) (cs : Option (List Nat)) (v x : Nat) (peer : Bool)
    (h : serverUp .openssl s m cs v x peer = true) :
    (m ≠ 0 → ∃ a b, m.getLsbD a = true ∧ m.getLsbD b = true ∧ a ≤ v ∧ v ≤ b) ∧
      ∀ l, cs = some l → (v = 3 → s.takes13 l = true) → (v ≠ 3 → s.takes l = true) → x ∈ l := by
  simp only [serverUp, Bool.and_eq_true] at h
  obtain ⟨⟨hv, hc⟩, -⟩ := h
  constructor
  · intro h0
    obtain ⟨a, b, hr, ha, hb, -⟩ := range_some m h0 hm
    refine ⟨a, b, ha, hb, ?_⟩
    have hl : (serverCfg .openssl s m cs).limits = (some a, some b) := by
      have h0' : ¬m = 0#32 := h0
      cases cs <;> simp [serverCfg, setup, setVerify, setCiphers, setVersions, h0', hr]
    rw [Cfg.version, hl, if_neg (by simp)] at hv
    simp only [ConfTls.within, Option.all_some, Bool.and_eq_true, decide_eq_true_eq] at hv
    exact hv.2
  · intro l hl t13 t
    subst hl
    have he : (if v = 3 then (serverCfg .openssl s m (some l)).ciphers13 else (serverCfg .openssl s m (some l)).ciphers) = some l := by
      by_cases h3 : v = 3
      · simp [serverCfg, setup, setVerify, setCiphers, h3, t13 h3]
      · simp [serverCfg, setup, setVerify, setCiphers, h3, t h3]
    rw [Cfg.cipher, he] at hc
    simp only [Bool.and_eq_true, List.contains_iff_mem] at hc
    exact hc.2

/-- C173: with OpenSSL, configured versions and cipher suites that the library supports can be used. -/
theorem tls_parameters_used (s : Support) (m : BitVec 32) (hm : ∀ i, m.getLsbD i = true → i ≤ 3) (cs : List Nat) (v x : Nat) (hv : m.getLsbD v = true)
    (hs : s.version v = true) (hx : x ∈ cs) (hc : s.cipher x = true) (t13 : v = 3 → s.takes13 cs = true) (t : v ≠ 3 → s.takes cs = true) :
    serverUp .openssl s m (some cs) v x true = true := by
  have h0 : m ≠ 0 := fun h => by subst h; simp at hv
  obtain ⟨a, b, hr, -, -, hb⟩ := range_some m h0 hm
  have h0' : ¬m = 0#32 := h0
  have hl : (serverCfg .openssl s m (some cs)).limits = (some a, some b) := by
    simp [serverCfg, setup, setVerify, setCiphers, setVersions, h0', hr]
  have he : (if v = 3 then (serverCfg .openssl s m (some cs)).ciphers13 else (serverCfg .openssl s m (some cs)).ciphers) = some cs := by
    by_cases h3 : v = 3
    · simp [serverCfg, setup, setVerify, setCiphers, h3, t13 h3]
    · simp [serverCfg, setup, setVerify, setCiphers, h3, t h3]
  obtain ⟨b1, b2⟩ := hb v hv
  simp [serverUp, hl, he, Cfg.version, Cfg.cipher, ConfTls.within, hs, hc, hx, b1, b2]

/-- A library with TLS 1.2 and 1.3 and three cipher suites, the first one for TLS 1.2, the others for TLS 1.3. -/
def someTls : Support :=
  ⟨fun v => v == 2 || v == 3, fun x => x < 3, fun v => v == 2 || v == 3, fun x => x < 3, fun l => l.contains 0, fun l => l.all (fun x => x == 1 || x == 2)⟩

example : serverUp .openssl someTls 8#32 (some [1]) 3 1 true = true ∧ serverUp .openssl someTls 8#32 (some [1]) 2 0 true = false ∧
    serverUp .openssl someTls 8#32 (some [1]) 3 2 true = false := by decide

/-- C173 is false with Mbed TLS: the versions and cipher suites configured are overwritten by the defaults of the library before the handshake; all that
it has enabled is accepted. -/
theorem tls_parameters_false (s : Support) (m : BitVec 32) (cs : Option (List Nat)) (v x : Nat) (hv : s.defVersion v = true) (hx : s.defCipher x = true) :
    serverUp .mbedtls s m cs v x true = true := by
  have hl : (serverCfg .mbedtls s m cs).limits = (none, none) := rfl
  have hc : (serverCfg .mbedtls s m cs).ciphers = none := rfl
  have hc' : (serverCfg .mbedtls s m cs).ciphers13 = none := rfl
  simp [serverUp, Cfg.version, Cfg.cipher, hl, hc, hc', hv, hx]

example : serverUp .mbedtls someTls 8#32 (some [1]) 2 2 true = true := tls_parameters_false someTls _ _ _ _ rfl rfl

/-- C173 is false with OpenSSL if it does not take the list, because of a name it does not know for example: this goes unnoticed and all cipher suites it has
enabled are accepted. -/
theorem tls_ciphers_false (s : Support) (l : List Nat) (v x : Nat) (hv : s.defVersion v = true) (hx : s.defCipher x = true)
    (t : (if v = 3 then s.takes13 l else s.takes l) = false) : serverUp .openssl s 0 (some l) v x true = true := by
  by_cases h3 : v = 3
  · simp [h3] at t hv
    simp [serverUp, serverCfg, setup, setVerify, setCiphers, setVersions, Cfg.version, Cfg.cipher, h3, t, hv, hx]
  · simp [h3] at t
    simp [serverUp, serverCfg, setup, setVerify, setCiphers, setVersions, Cfg.version, Cfg.cipher, h3, t, hv, hx]

example : serverUp .openssl someTls 0 (some [0, 1]) 3 2 true = true := tls_ciphers_false someTls _ _ _ rfl rfl rfl

/-- C174: no TLS connection is established without a trusted certificate of the peer, on both sides, with both libraries and any parameters; the server has
its callback for cert-to-name set. -/
theorem tls_peer_checked (lib : Lib) (s : Support) (v x : Nat) (peer : Bool) :
    (clientUp lib s v x peer = true → peer = true) ∧
      ∀ m cs, (serverUp lib s m cs v x peer = true → peer = true) ∧ (serverCfg lib s m cs).callback = true := by
  refine ⟨fun h => ?_, fun m cs => ⟨fun h => ?_, ?_⟩⟩
  · have hv : (clientCfg lib).verify = true := by cases lib <;> rfl
    simp [clientUp, hv] at h
    exact h.2
  · have hv : (serverCfg lib s m cs).verify = true := by cases lib <;> rfl
    simp [serverUp, hv] at h
    exact h.2
  · cases lib <;> rfl

example : clientUp .mbedtls someTls 3 1 true = true ∧ clientUp .mbedtls someTls 3 1 false = false := by decide

/-- C175: the algorithms of a session for key exchange, host key, and for encryption and integrity of what the server sends, are configured ones. -/
theorem ssh_algorithms_partial (known defs : Kind → List Nat) (o : Algs) (client : Kind → List Nat) (x : Nat) :
    (∀ l, o.kex = some l → negotiate known defs o client .kex = some x → x ∈ l) ∧
      (∀ l, o.hostKey = some l → negotiate known defs o client .hostKey = some x → x ∈ l) ∧
      (∀ l, o.encryption = some l → negotiate known defs o client .cipherSC = some x → x ∈ l) ∧
      ∀ l, o.mac = some l → negotiate known defs o client .macSC = some x → x ∈ l := by
  unfold negotiate
  cases hb : bindAlgs known defs o with
  | none => exact ⟨fun _ _ h => (nomatch h), fun _ _ h => (nomatch h), fun _ _ h => (nomatch h), fun _ _ h => (nomatch h)⟩
  | some b =>
    obtain ⟨h1, h2, h3, h4, -⟩ := bindAlgs_parts hb
    exact ⟨fun l hl h => h3 l hl x (chosen_in h).2, fun l hl h => h1 l hl x (chosen_in h).2, fun l hl h => h2 l hl x (chosen_in h).2,
      fun l hl h => h4 l hl x (chosen_in h).2⟩

/-- C175: a client that offers a configured algorithm that the library knows gets one of them, for each of these kinds. -/
theorem ssh_algorithms_used (known defs : Kind → List Nat) (o : Algs) (client : Kind → List Nat) (h1 : ∀ l, o.hostKey = some l → ∃ x ∈ l, x ∈ known .hostKey)
    (h2 : ∀ l, o.encryption = some l → ∃ x ∈ l, x ∈ known .cipherSC) (h3 : ∀ l, o.kex = some l → ∃ x ∈ l, x ∈ known .kex)
    (h4 : ∀ l, o.mac = some l → ∃ x ∈ l, x ∈ known .macSC) :
    (∀ l x, o.hostKey = some l → x ∈ l → x ∈ known .hostKey → x ∈ client .hostKey → ∃ y, negotiate known defs o client .hostKey = some y) ∧
      (∀ l x, o.encryption = some l → x ∈ l → x ∈ known .cipherSC → x ∈ client .cipherSC → ∃ y, negotiate known defs o client .cipherSC = some y) ∧
      (∀ l x, o.kex = some l → x ∈ l → x ∈ known .kex → x ∈ client .kex → ∃ y, negotiate known defs o client .kex = some y) ∧
      ∀ l x, o.mac = some l → x ∈ l → x ∈ known .macSC → x ∈ client .macSC → ∃ y, negotiate known defs o client .macSC = some y := by
  obtain ⟨b, hb, g1, g2, g3, g4⟩ := bindAlgs_ok (defs := defs) h1 h2 h3 h4
  have key : ∀ k (l : List Nat) x, b k = l.filter (fun x => (known k).contains x) → x ∈ l → x ∈ known k → x ∈ client k →
      ∃ y, negotiate known defs o client k = some y := by
    intro k l x hk hx hn hc
    simp only [negotiate, hb, chosen]
    cases hf : (client k).find? (fun x => (b k).contains x) with
    | some y => exact ⟨y, rfl⟩
    | none =>
      have := List.find?_eq_none.1 hf x hc
      rw [hk] at this
      simp [hx, hn] at this
  exact ⟨fun l x hl => key _ l x (g1 l hl), fun l x hl => key _ l x (g2 l hl), fun l x hl => key _ l x (g3 l hl), fun l x hl => key _ l x (g4 l hl)⟩

/-- C175: a configured list without any algorithm that the library knows refuses all sessions. -/
theorem ssh_unknown_algorithms_refused (known defs : Kind → List Nat) (o : Algs) (client : Kind → List Nat) (k : Kind) (l : List Nat)
    (hl : o.encryption = some l) (hk : ∀ x ∈ l, x ∉ known .cipherSC) : negotiate known defs o client k = none := by
  have hs : ∀ b, setAlgs known .cipherSC o.encryption b = none := fun b => by
    have he : l.filter (fun x => (known .cipherSC).contains x) = [] := by
      rw [List.filter_eq_nil_iff]
      intro x hx
      simpa using hk x hx
    simp only [hl, setAlgs, he, if_true]
  unfold negotiate bindAlgs
  cases setAlgs known .hostKey o.hostKey defs with
  | none => rfl
  | some b1 => simp only [hs]

/-- A library with two algorithms of each kind. -/
def someAlgs : Kind → List Nat := fun _ => [0, 1]

example : negotiate someAlgs someAlgs ⟨some [1], some [1], some [1], some [1]⟩ someAlgs .kex = some 1 ∧
    negotiate someAlgs someAlgs ⟨some [1], some [1], some [1], some [1]⟩ someAlgs .cipherSC = some 1 := by decide

/-- C175 is false as a whole: encryption and integrity of what the client sends are not restricted at all; the client decides among all that libssh has
enabled. -/
theorem ssh_algorithms_false (known defs : Kind → List Nat) (o : Algs) (client : Kind → List Nat) (k : Kind) (hk : k = .cipherCS ∨ k = .macCS) (x : Nat)
    (xs : List Nat) (hc : client k = x :: xs) (hx : x ∈ defs k) (hb : (bindAlgs known defs o).isSome = true) : negotiate known defs o client k = some x := by
  cases h : bindAlgs known defs o with
  | none => rw [h] at hb; cases hb
  | some b =>
    obtain ⟨-, -, -, -, h5, h6⟩ := bindAlgs_parts h
    have he : b k = defs k := by rcases hk with r | r <;> subst r <;> assumption
    simp [negotiate, h, chosen, hc, he, hx]

example : negotiate someAlgs someAlgs ⟨some [1], some [1], some [1], some [1]⟩ someAlgs .cipherCS = some 0 :=
  ssh_algorithms_false someAlgs someAlgs _ someAlgs .cipherCS (Or.inl rfl) 0 [1] rfl (by decide) (by decide)

end Verif.Props
