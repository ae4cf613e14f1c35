import Verif.Lemmas.TlsMem

/-!
# Memory of the Mbed TLS wrappers

`mem` says which allocations succeed, `Lib` what the library returned; both are arbitrary. `Gives x P`: no undefined behaviour, and `P` holds of the
result and the heap. `Leaves h ret h'`: compared with `h`, exactly the structures `ret` are allocated in addition.
-/

namespace Verif.Props

open Verif.TlsMem

/-- C206: certificates, public keys, TLS sessions, configurations and CRL stores are created without touching memory wrongly, whatever fails; exactly
what is returned is allocated afterwards, and destroying it gives everything back. Testing the format of a key leaves nothing behind. -/
theorem tls_objects (mem : Nat → Bool) (l : Lib) (h : Heap) (hs : h.Sound) :
    (Gives (newObj mem h) fun p h' => p.isSome = mem h.calls ∧ Leaves h p.toList h' ∧
      ∃ h2 h3, destroy p h' = some h2 ∧ configDestroy p h' = some h2 ∧ certDestroy p h' = some h3 ∧ Leaves h [] h2 ∧ Leaves h [] h3) ∧
    (Gives (newFilled mem l h) fun p h' => p.isSome = (l.ok && mem h.calls) ∧ Leaves h p.toList h' ∧ ∃ h2, destroy p h' = some h2 ∧ Leaves h [] h2) ∧
    (Gives (newCert mem l h) fun p h' => p.isSome = (l.ok && mem h.calls) ∧ Leaves h p.toList h' ∧
      ∃ h2, certDestroy p h' = some h2 ∧ Leaves h [] h2) ∧
    (Gives (isDer mem l h) fun _ h' => Leaves h [] h') := by
  refine ⟨?_, ?_, ?_, ?_⟩
  · obtain ⟨p, h', e, lv, hp⟩ := newObj_gives mem h hs
    exact ⟨p, h', e, hp, lv, destroys hs lv⟩
  · obtain ⟨p, h', e, lv, hp⟩ := newFilled_gives mem l h hs
    obtain ⟨h2, h3, e2, _, _, l2, _⟩ := destroys hs lv
    exact ⟨p, h', e, hp, lv, h2, e2, l2⟩
  · obtain ⟨p, h', e, lv, hp⟩ := newCert_gives mem l h hs
    obtain ⟨h2, h3, _, _, e3, _, l3⟩ := destroys hs lv
    exact ⟨p, h', e, hp, lv, h3, e3, l3⟩
  · obtain ⟨p, h', e, lv, _⟩ := isDer_gives mem l h hs
    exact ⟨p, h', e, lv⟩

/-- An empty heap. -/
def tmEmpty : Heap := ⟨fun _ => .dead, 0, 0, 0⟩

example : tmEmpty.Sound := fun _ _ => rfl

/-- A certificate that cannot be parsed, with something left on the structure. -/
example : (newCert (fun _ => true) ⟨false, true⟩ tmEmpty).map (fun r => (r.1, r.2.cell 0, r.2.lost)) = some (none, .dead, 0) := by decide

example : (newCert (fun _ => true) ⟨true, false⟩ tmEmpty).map (fun r => (r.1, r.2.cell 0, r.2.lost)) = some (some 0, .init true none, 0) := by decide

/-- C207: private keys are loaded without touching memory wrongly, unless the memory for the random number generator runs out after its first half:
exactly the key (and the certificate) returned is allocated afterwards, and destroying it gives everything back. The full statement is the same without
the premises about `mem`; `tls_keys_false` refutes it. -/
theorem tls_keys_partial (mem : Nat → Bool) (lc seed l : Lib) (h : Heap) (hs : h.Sound) :
    (¬ (mem h.calls = true ∧ mem (h.calls + 1) = false) →
      (Gives (pemToKey mem seed l h) fun p h' => p.isSome = (seed.ok && l.ok && mem h.calls && mem (h.calls + 2)) ∧ Leaves h p.toList h' ∧
        ∃ h2, destroy p h' = some h2 ∧ Leaves h [] h2) ∧
      (Gives (keyFromFile mem seed l h) fun p h' => p.isSome = (seed.ok && l.ok && mem h.calls && mem (h.calls + 2)) ∧ Leaves h p.toList h' ∧
        ∃ h2, destroy p h' = some h2 ∧ Leaves h [] h2)) ∧
    (¬ (mem h.calls = true ∧ lc.ok = true ∧ mem (h.calls + 1) = true ∧ mem (h.calls + 2) = false) →
      Gives (loadCertKey mem lc seed l h) fun r h' => Leaves h (both r) h' ∧
        (r.isSome = (lc.ok && seed.ok && l.ok && mem h.calls && mem (h.calls + 1) && mem (h.calls + 3))) ∧
        ∀ x, r = some x → x.1.isSome ∧ x.2.isSome) := by
  refine ⟨fun hm => ⟨?_, ?_⟩, fun hm => loadCertKey_gives mem lc seed l h hs hm⟩
  · obtain ⟨p, h', e, lv, hp⟩ := pemToKey_gives mem seed l h hs hm
    obtain ⟨h2, h3, e2, _, _, l2, _⟩ := destroys hs lv
    exact ⟨p, h', e, hp, lv, h2, e2, l2⟩
  · obtain ⟨p, h', e, lv, hp⟩ := keyFromFile_gives mem seed l h hs hm
    obtain ⟨h2, h3, e2, _, _, l2, _⟩ := destroys hs lv
    exact ⟨p, h', e, hp, lv, h2, e2, l2⟩

/-- C207: when the second allocation of the random number generator fails, its first half is given to `mbedtls_entropy_free` without having been
initialised, whatever key is being loaded. -/
theorem tls_keys_false (mem : Nat → Bool) (seed l : Lib) (h : Heap) (h0 : mem h.calls = true) (h1 : mem (h.calls + 1) = false) :
    pemToKey mem seed l h = none ∧ keyFromFile mem seed l h = none := keys_ub mem seed l h h0 h1

/-- The key cannot be parsed. -/
example : (pemToKey (fun _ => true) ⟨true, true⟩ ⟨false, true⟩ tmEmpty).map (fun r => (r.1, (List.range 4).map r.2.cell, r.2.lost)) =
    some (none, [.dead, .dead, .dead, .dead], 0) := by decide

example : (loadCertKey (fun _ => true) ⟨true, true⟩ ⟨true, true⟩ ⟨true, true⟩ tmEmpty).map (fun r => (r.1, (List.range 5).map r.2.cell)) =
    some (some (some 0, some 3), [.init true none, .dead, .dead, .init true none, .dead]) := by decide

example : pemToKey (fun k => k == 0) ⟨true, true⟩ ⟨true, true⟩ tmEmpty = none := by
  exact (tls_keys_false _ _ _ tmEmpty rfl rfl).1

/-- C208: the parameters of public keys are exported without touching memory wrongly, when all allocations succeed or all fail: exactly the two
structures returned are allocated afterwards. The full statement is the same without the premises; `key_params_false` refutes it. -/
theorem key_params_partial (mem : Nat → Bool) (l : Lib) (h : Heap) (hs : h.Sound) :
    (mem h.calls = mem (h.calls + 1) →
      Gives (rsaParams mem l h) fun r h' => Leaves h (both r) h' ∧ (r.isSome = (l.ok && mem h.calls)) ∧
        ∀ x, r = some x → x.1.isSome ∧ x.2.isSome) ∧
    (mem h.calls = mem (h.calls + 1) → mem h.calls = mem (h.calls + 2) →
      Gives (ecParams mem l h) fun r h' => Leaves h (both r) h' ∧ (r.isSome = (l.ok && mem h.calls)) ∧
        ∀ x, r = some x → x.1.isSome ∧ x.2.isSome) :=
  ⟨rsaParams_gives mem l h hs, ecParams_gives mem l h hs⟩

/-- C208: whenever only some of the allocations succeed, structures that were not initialised are given to the `_free` functions. -/
theorem key_params_false (mem : Nat → Bool) (l : Lib) (h : Heap) :
    (mem h.calls ≠ mem (h.calls + 1) → rsaParams mem l h = none) ∧
    (¬ (mem h.calls = mem (h.calls + 1) ∧ mem h.calls = mem (h.calls + 2)) → ecParams mem l h = none) :=
  ⟨rsaParams_ub mem l h, ecParams_ub mem l h⟩

example : (ecParams (fun _ => true) ⟨true, true⟩ tmEmpty).map (fun r => (r.1, (List.range 4).map r.2.cell)) =
    some (some (some 2, some 0), [.init true none, .dead, .init true none, .dead]) := by decide

example : rsaParams (fun k => k == 1) ⟨true, true⟩ tmEmpty = none := (key_params_false _ _ tmEmpty).1 (by decide)

/-- C209: the chain of certificates built by the verify callback is freed exactly once in a handshake, whatever fails, and the certificate of the
session is the only thing left: one that was there before is kept. If the handshake goes on, no call ended with a fatal error, and a verified peer has its
certificate in the session. It goes on unless memory runs out, a certificate cannot be parsed again, or a call ends with a fatal error. -/
theorem verify_chain (mem : Nat → Bool) (calls : List Call) (cc : Ptr) (h : Heap) (hs : h.Sound) (hc : Handshake calls) :
    Gives (verifyRun mem calls ⟨none, cc⟩ h) fun r h' =>
      (cc = none → Leaves h r.2.clientCert.toList h') ∧ (cc ≠ none → r.2.clientCert = cc ∧ Leaves h [] h') ∧
      (r.1 = true → (∀ c, c ∈ calls → c.verdict ≠ .fatal) ∧ ∀ c, calls.getLast? = some c → c.verdict = .ok → r.2.clientCert.isSome) ∧
      ((∀ k, mem k = true) → (∀ c ∈ calls, c.dup1 = true ∧ c.dup2 = true ∧ c.verdict ≠ .fatal) → r.1 = true) := by
  obtain ⟨pre, last, rfl, hl, hpre, hi⟩ := hc
  obtain ⟨r, h', e, hd, hr⟩ := verifyRun_gives mem hs pre last hl hpre hi (cc := cc) (h := h) (chain := none) (ns := [])
    ⟨hs, rfl, Nat.le_refl _, rfl, List.nodup_nil, by simp, by simp⟩
  refine ⟨r, h', e, hd.1, hd.2, fun ht => ⟨(hr ht).1, ?_⟩, fun hm hall => verifyRun_all hm hall e⟩
  intro c hcl hok
  simp at hcl
  subst hcl
  exact (hr ht).2 hok

/-- Two certificates of authorities, an error printed for one of them, then that of the peer. -/
def tmCalls : List Call := [⟨2, .ok, true, true⟩, ⟨1, .printed 30, true, true⟩, ⟨0, .ok, true, true⟩]

example : Handshake tmCalls := ⟨[⟨2, .ok, true, true⟩, ⟨1, .printed 30, true, true⟩], ⟨0, .ok, true, true⟩, rfl, rfl, by decide, by
  intro c hc info hi
  simp [tmCalls] at hc
  rcases hc with rfl | rfl | rfl <;> simp at hi
  subst hi
  decide⟩

example : (verifyRun (fun _ => true) tmCalls ⟨none, none⟩ tmEmpty).map (fun r => (r.1.1, r.1.2.clientCert, (List.range 6).map r.2.cell)) =
    some (true, some 4, [.dead, .dead, .dead, .dead, .init true none, .dead]) := by decide

/-- The copy of the third certificate cannot be allocated. -/
example : (verifyRun (fun k => k != 3) tmCalls ⟨none, none⟩ tmEmpty).map (fun r => (r.1.1, r.1.2.clientCert, (List.range 6).map r.2.cell)) =
    some (false, none, [.dead, .dead, .dead, .dead, .dead, .dead]) := by decide

/-- C210: a public key that passes the test for SSH keys is not one the library can parse as SubjectPublicKeyInfo (`l.ok`), whatever fails; one that
passes the test for TLS server certificates is, if the text could be decoded and (with Mbed TLS) memory was available. The full statement is that for TLS
without these two premises; `key_format_false` refutes it. -/
theorem key_format_partial (mem : Nat → Bool) (decoded : Bool) (l : Lib) (h : Heap) (hs : h.Sound) :
    (Gives (isDer mem l h) fun r _ =>
      (sshKeyPasses (isSpki decoded r) = true → decoded = true ∧ l.ok = false) ∧
      (decoded = true → mem h.calls = true → (tlsKeyPasses (isSpki decoded r) = true ↔ l.ok = true))) ∧
    (sshKeyPasses (isSpki decoded (isDerOssl l)) = true → decoded = true ∧ l.ok = false) ∧
    (decoded = true → (tlsKeyPasses (isSpki decoded (isDerOssl l)) = true ↔ l.ok = true)) := by
  obtain ⟨lo, ll⟩ := l
  refine ⟨?_, ?_, ?_⟩
  · obtain ⟨r, h', e, _, hr⟩ := isDer_gives mem ⟨lo, ll⟩ h hs
    refine ⟨r, h', e, ?_, ?_⟩
    · subst hr
      cases decoded <;> cases lo <;> cases mem h.calls <;> simp [sshKeyPasses, isSpki]
    · intro h1 h2
      subst hr h1
      rw [h2]
      cases lo <;> simp [tlsKeyPasses, isSpki]
  · cases decoded <;> cases lo <;> simp [sshKeyPasses, isSpki, isDerOssl]
  · rintro rfl
    cases lo <;> simp [tlsKeyPasses, isSpki, isDerOssl]

/-- C210: without memory, a key in another format passes for that of a TLS server certificate: with Mbed TLS when the test has none, with both libraries
when decoding has none. -/
theorem key_format_false (mem : Nat → Bool) (left : Bool) (h : Heap) (hs : h.Sound) :
    (mem h.calls = false → Gives (isDer mem ⟨false, left⟩ h) fun r _ => tlsKeyPasses (isSpki true r) = true) ∧
    tlsKeyPasses (isSpki false (isDerOssl ⟨false, left⟩)) = true := by
  refine ⟨fun hm => ?_, by simp [tlsKeyPasses, isSpki]⟩
  obtain ⟨r, h', e, _, hr⟩ := isDer_gives mem ⟨false, left⟩ h hs
  refine ⟨r, h', e, ?_⟩
  rw [hm] at hr
  subst hr
  simp [tlsKeyPasses, isSpki]

example : (isDer (fun _ => true) ⟨false, true⟩ tmEmpty).map (fun r => tlsKeyPasses (isSpki true r.1)) = some false := by decide

example : (isDer (fun _ => false) ⟨false, true⟩ tmEmpty).map (fun r => tlsKeyPasses (isSpki true r.1)) = some true := by decide

end Verif.Props
