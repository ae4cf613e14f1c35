/-!
# Memory of the Mbed TLS wrappers (src/session_mbedtls.c)

The structures of Mbed TLS are allocated with `malloc`, initialised by the `_init` function of the library, emptied by its `_free` function and given
back with `free`. The functions below are those steps; which allocations succeed is a parameter (`mem`, by the number of the call), so are the results
of the library. Touching memory that is not allocated, or giving memory that was not initialised to a `_free` function, is undefined behaviour: `none`.
-/

namespace Verif.TlsMem

/-- A structure allocated by the wrappers (src/session_mbedtls.c:124-130): not allocated, allocated, or initialised; `owns` tells whether memory of the
library hangs on it, `next` is the next certificate of the list (src/session_mbedtls.c:489-493). -/
inductive Cell where
  | dead
  | raw
  | init (owns : Bool) (next : Option Nat)
  deriving DecidableEq, Repr

/-- The heap (src/session_mbedtls.c:202): `top` is the first address not used yet, `calls` the number of allocations tried, `lost` the number of
structures given back while memory of the library hung on them. -/
structure Heap where
  cell : Nat → Cell
  top : Nat
  calls : Nat
  lost : Nat

/-- A pointer (src/session_mbedtls.c:121-122); `none` is NULL. -/
abbrev Ptr := Option Nat

/-- Writing to an allocated structure (src/session_mbedtls.c:493). -/
def Heap.set (h : Heap) (i : Nat) (c : Cell) : Heap := { h with cell := fun j => if j = i then c else h.cell j }

/-- `malloc` (src/session_mbedtls.c:202). -/
def malloc (mem : Nat → Bool) (h : Heap) : Ptr × Heap :=
  if mem h.calls then (some h.top, { (h.set h.top .raw) with top := h.top + 1, calls := h.calls + 1 })
  else (none, { h with calls := h.calls + 1 })

/-- An `_init` function of the library (src/session_mbedtls.c:129-130, 205, 233, 256, 280, 313, 1397-1398, 1463-1465). -/
def initObj (p : Ptr) (h : Heap) : Option Heap :=
  match p with
  | none => none
  | some i => if h.cell i = .dead then none else some (h.set i (.init false none))

/-- A call that fills an initialised structure (src/session_mbedtls.c:132, 207, 335, 379); `left` tells whether something hangs on it afterwards. -/
def fill (p : Ptr) (left : Bool) (h : Heap) : Option Heap :=
  match p with
  | none => none
  | some i =>
    match h.cell i with
    | .init o n => some (h.set i (.init (o || left) n))
    | _ => none

/-- A `_free` function of the library that accepts NULL (src/session_mbedtls.c:141, 161, 210, 221, 287, 1410-1411, 1481-1485). -/
def release (p : Ptr) (h : Heap) : Option Heap :=
  match p with
  | none => some h
  | some i =>
    match h.cell i with
    | .init _ _ => some (h.set i .raw)
    | _ => none

/-- `mbedtls_entropy_free`, which does not accept NULL in all versions of the library (src/session_mbedtls.c:143-144, 163-164). -/
def releaseEntropy (p : Ptr) (h : Heap) : Option Heap :=
  match p with
  | none => none
  | some _ => release p h

/-- `free` (src/session_mbedtls.c:142, 145, 211, 222, 460). -/
def free (p : Ptr) (h : Heap) : Option Heap :=
  match p with
  | none => some h
  | some i =>
    match h.cell i with
    | .dead => none
    | .raw => some (h.set i .dead)
    | .init o _ => some { (h.set i .dead) with lost := h.lost + (if o then 1 else 0) }

/-- Destroying a key, session, CRL store, number or point (src/session_mbedtls.c:218-223, 284-289, 317-322, 1417-1422, 1519-1531). -/
def destroy (p : Ptr) (h : Heap) : Option Heap := (release p h).bind (free p)

/-- `nc_tls_config_destroy_wrap` (src/session_mbedtls.c:237-246). -/
def configDestroy (p : Ptr) (h : Heap) : Option Heap := if p.isNone then some h else (release p h).bind (free p)

/-- The certificates behind the first one, which `mbedtls_x509_crt_free` gives back itself (src/session_mbedtls.c:263). A list longer than the number
of structures would never end. -/
def freeRest : Nat → Ptr → Heap → Option Heap
  | _, none, h => some h
  | 0, some _, _ => none
  | k + 1, some i, h =>
    match h.cell i with
    | .init _ n => freeRest k n (h.set i .dead)
    | _ => none

/-- `nc_tls_cert_destroy_wrap` (src/session_mbedtls.c:260-265). -/
def certDestroy (p : Ptr) (h : Heap) : Option Heap :=
  match p with
  | none => some h
  | some i =>
    match h.cell i with
    | .init _ n => (freeRest h.top n (h.set i .raw)).bind (free (some i))
    | _ => none

/-- `malloc` followed by an `_init` function: certificates, keys, configurations and CRL stores (src/session_mbedtls.c:225-235, 248-258, 272-282,
305-315). -/
def newObj (mem : Nat → Bool) (h : Heap) : Option (Ptr × Heap) :=
  match malloc mem h with
  | (none, h) => some (none, h)
  | (some p, h) => (initObj (some p) h).map (fun h => (some p, h))

/-- What a call of the library returned: whether it succeeded, and whether something hangs on the structure although it failed
(src/session_mbedtls.c:335-336). -/
structure Lib where
  ok : Bool
  left : Bool

/-- `nc_tls_session_new_wrap` (src/session_mbedtls.c:196-216), `nc_tls_import_pubkey_file_wrap` (src/session_mbedtls.c:1556-1575). -/
def newFilled (mem : Nat → Bool) (l : Lib) (h : Heap) : Option (Ptr × Heap) :=
  (newObj mem h).bind fun
    | (none, h) => some (none, h)
    | (p, h) =>
      (fill p (l.ok || l.left) h).bind fun h =>
        if l.ok then some (p, h) else (destroy p h).map (fun h => (none, h))

/-- `nc_tls_pem_to_cert_wrap` (src/session_mbedtls.c:324-343), `nc_tls_import_cert_file_wrap` (src/session_mbedtls.c:1289-1308). -/
def newCert (mem : Nat → Bool) (l : Lib) (h : Heap) : Option (Ptr × Heap) :=
  (newObj mem h).bind fun
    | (none, h) => some (none, h)
    | (p, h) =>
      (fill p (l.ok || l.left) h).bind fun h =>
        if l.ok then some (p, h) else (certDestroy p h).map (fun h => (none, h))

/-- `nc_tls_is_der_subpubkey_wrap` (src/session_mbedtls.c:1134-1149). -/
def isDer (mem : Nat → Bool) (l : Lib) (h : Heap) : Option (Int × Heap) :=
  (newObj mem h).bind fun
    | (none, h) => some (-1, h)
    | (p, h) =>
      (fill p (l.ok || l.left) h).bind fun h => (destroy p h).map (fun h => (if l.ok then 1 else 0, h))

/-- `nc_tls_rng_destroy` (src/session_mbedtls.c:158-167). -/
def rngDestroy (drbg entropy : Ptr) (h : Heap) : Option Heap :=
  (release drbg h).bind fun h => (free drbg h).bind fun h =>
    if entropy.isSome then (releaseEntropy entropy h).bind (free entropy) else some h

/-- `nc_tls_rng_new` (src/session_mbedtls.c:116-150): the pointers are NULL when it fails. The end of the function is that of `nc_tls_rng_destroy`. -/
def rngNew (mem : Nat → Bool) (seed : Lib) (h : Heap) : Option ((Bool × Ptr × Ptr) × Heap) :=
  match malloc mem h with
  | (none, h) => (rngDestroy none none h).map (fun h => ((false, none, none), h))                   -- 125
  | (entropy, h) =>
    match malloc mem h with
    | (none, h) => (rngDestroy none entropy h).map (fun h => ((false, none, none), h))              -- 127
    | (drbg, h) =>
      (initObj entropy h).bind fun h => (initObj drbg h).bind fun h =>                              -- 129-130
        (fill entropy (seed.ok || seed.left) h).bind fun h => (fill drbg (seed.ok || seed.left) h).bind fun h =>
          if seed.ok then some ((true, drbg, entropy), h)
          else (rngDestroy drbg entropy h).map (fun h => ((false, none, none), h))                  -- 133-136

/-- `nc_tls_pem_to_privkey_wrap` (src/session_mbedtls.c:360-392). -/
def pemToKey (mem : Nat → Bool) (seed l : Lib) (h : Heap) : Option (Ptr × Heap) :=
  (rngNew mem seed h).bind fun
    | ((false, d, e), h) => (destroy none h).bind fun h => (rngDestroy d e h).map (fun h => (none, h))        -- 369-371
    | ((true, d, e), h) =>
      (newObj mem h).bind fun
        | (none, h) => (destroy none h).bind fun h => (rngDestroy d e h).map (fun h => (none, h))             -- 374-377
        | (p, h) =>
          (fill p (l.ok || l.left) h).bind fun h =>
            if l.ok then (rngDestroy d e h).map (fun h => (p, h))
            else (destroy p h).bind fun h => (rngDestroy d e h).map (fun h => (none, h))                      -- 386-391

/-- `nc_tls_import_privkey_file_wrap` (src/session_mbedtls.c:959-985). -/
def keyFromFile (mem : Nat → Bool) (seed l : Lib) (h : Heap) : Option (Ptr × Heap) :=
  (rngNew mem seed h).bind fun
    | ((false, _, _), h) => some (none, h)
    | ((true, d, e), h) =>
      (newObj mem h).bind fun
        | (none, h) => (rngDestroy d e h).map (fun h => (none, h))                                  -- 972-975
        | (p, h) =>
          (fill p (l.ok || l.left) h).bind fun h => (rngDestroy d e h).bind fun h =>                -- 977-978
            if l.ok then some (p, h) else (destroy p h).map (fun h => (none, h))                    -- 979-983

/-- `nc_client_tls_load_cert_key_wrap` (src/session_mbedtls.c:987-1020): the certificate and the key on success; `lc` is the result of parsing the
certificate, `seed` and `lk` those of importing the key. -/
def loadCertKey (mem : Nat → Bool) (lc seed lk : Lib) (h : Heap) : Option (Option (Ptr × Ptr) × Heap) :=
  (newObj mem h).bind fun
    | (none, h) => some (none, h)                                                                   -- 997-999
    | (c, h) =>
      (fill c (lc.ok || lc.left) h).bind fun h =>
        if lc.ok then
          (keyFromFile mem seed lk h).bind fun
            | (none, h) => (certDestroy c h).map (fun h => (none, h))                               -- 1008-1011
            | (k, h) => (certDestroy none h).map (fun h => (some (c, k), h))                        -- 1013-1018
        else (certDestroy c h).map (fun h => (none, h))                                             -- 1002-1005

/-- `nc_tls_get_rsa_pubkey_params_wrap` (src/session_mbedtls.c:1385-1415). -/
def rsaParams (mem : Nat → Bool) (l : Lib) (h : Heap) : Option (Option (Ptr × Ptr) × Heap) :=
  let fail (e n : Ptr) (h : Heap) : Option (Option (Ptr × Ptr) × Heap) :=
    (release e h).bind fun h => (release n h).bind fun h => (free e h).bind fun h => (free n h).map (fun h => (none, h))
  match malloc mem h with
  | (e, h) =>
    match malloc mem h with
    | (n, h) =>
      if e.isNone || n.isNone then fail e n h
      else
        (initObj e h).bind fun h => (initObj n h).bind fun h =>
          (fill n (l.ok || l.left) h).bind fun h => (fill e (l.ok || l.left) h).bind fun h =>
            if l.ok then some (some (e, n), h) else fail e n h

/-- `nc_tls_get_ec_pubkey_params_wrap` (src/session_mbedtls.c:1446-1488): the point and the group on success. -/
def ecParams (mem : Nat → Bool) (l : Lib) (h : Heap) : Option (Option (Ptr × Ptr) × Heap) :=
  let cleanup (g d p : Ptr) (h : Heap) : Option Heap := (destroy g h).bind fun h => (destroy d h).bind (destroy p)
  match malloc mem h with
  | (g, h) =>
    match malloc mem h with
    | (d, h) =>
      match malloc mem h with
      | (p, h) =>
        if g.isNone || p.isNone || d.isNone then (cleanup g d p h).map (fun h => (none, h))
        else
          (initObj g h).bind fun h => (initObj d h).bind fun h => (initObj p h).bind fun h =>
            (fill g (l.ok || l.left) h).bind fun h => (fill d (l.ok || l.left) h).bind fun h => (fill p (l.ok || l.left) h).bind fun h =>
              if l.ok then (cleanup none d none h).map (fun h => (some (p, g), h)) else (cleanup g d p h).map (fun h => (none, h))

/-- `nc_tls_cert_dup` (src/session_mbedtls.c:449-465); `mbedtls_x509_crt_parse_der` leaves nothing behind when it fails. -/
def certDup (mem : Nat → Bool) (ok : Bool) (h : Heap) : Option (Ptr × Heap) :=
  (newObj mem h).bind fun
    | (none, h) => some (none, h)
    | (p, h) => (fill p ok h).bind fun h => if ok then some (p, h) else (free p h).map (fun h => (none, h))

/-- The loop looking for the last certificate (src/session_mbedtls.c:489-492). -/
def lastCert : Nat → Nat → Heap → Option Nat
  | 0, _, _ => none
  | k + 1, i, h =>
    match h.cell i with
    | .init _ none => some i
    | .init _ (some j) => lastCert k j h
    | _ => none

/-- `iter->next = copy` (src/session_mbedtls.c:493). -/
def setNext (i : Nat) (copy : Ptr) (h : Heap) : Option Heap :=
  match h.cell i with
  | .init o _ => some (h.set i (.init o copy))
  | _ => none

/-- `nc_server_tls_append_cert_to_chain` (src/session_mbedtls.c:474-497): whether it succeeded, and the chain. -/
def appendCert (mem : Nat → Bool) (ok : Bool) (chain : Ptr) (h : Heap) : Option ((Bool × Ptr) × Heap) :=
  (certDup mem ok h).bind fun
    | (none, h) => some ((false, chain), h)
    | (copy, h) =>
      match chain with
      | none => some ((true, copy), h)
      | some i => (lastCert h.top i h).bind fun j => (setNext j copy h).map (fun h => ((true, some i), h))

/-- `nc_tls_get_verify_err_str` (src/session_mbedtls.c:175-194); `info` is what `mbedtls_x509_crt_verify_info` returns. The last character is
overwritten: the one before the buffer if nothing was printed. -/
def errStr (mem : Nat → Bool) (info : Int) (h : Heap) : Option (Ptr × Heap) :=
  match malloc mem h with
  | (none, h) => some (none, h)
  | (p, h) =>
    if info < 0 then (free p h).map (fun h => (none, h))
    else if info = 0 ∨ info > 256 then none
    else some (p, h)

/-- What `ret` is after the verification (src/session_mbedtls.c:522-549): 0, 1 and -1 of `nc_server_tls_verify_cert`, or 1 after printing the error. -/
inductive Verdict where
  | ok
  | fail
  | fatal
  | printed (info : Int)
  deriving DecidableEq, Repr

/-- A call of the verify callback (src/session_mbedtls.c:508-509): the depth, what the verification says, and whether the certificate can be parsed
again, both times. -/
structure Call where
  depth : Nat
  verdict : Verdict
  dup1 : Bool
  dup2 : Bool

/-- The chain being built and the certificate of the session (src/session_wrapper.h:66-70, src/session_mbedtls.c:561-563). -/
structure CbData where
  chain : Ptr
  clientCert : Ptr

/-- What remains of the callback when the verification is over (src/session_mbedtls.c:551-580); `fatal` is `ret == -1`, `good` is `!ret`. The result
tells whether 0 is returned. -/
def cbEnd (mem : Nat → Bool) (c : Call) (fatal good : Bool) (d : CbData) (h : Heap) : Option ((Bool × CbData) × Heap) :=
  (if fatal || c.depth == 0 then certDestroy d.chain h else some h).bind fun h =>
    if fatal then some ((false, d), h)
    else if good && c.depth == 0 && d.clientCert.isNone then
      (certDup mem c.dup2 h).map (fun (p, h) => ((p.isSome, { d with clientCert := p }), h))
    else some ((true, d), h)

/-- `nc_server_tls_verify_cb` (src/session_mbedtls.c:508-581). -/
def verifyCb (mem : Nat → Bool) (c : Call) (d : CbData) (h : Heap) : Option ((Bool × CbData) × Heap) :=
  (appendCert mem c.dup1 d.chain h).bind fun
    | ((false, chain), h) => (certDestroy chain h).map (fun h => ((false, { d with chain := chain }), h))     -- 517-520
    | ((true, chain), h) =>
      match c.verdict with
      | .ok => cbEnd mem c false true { d with chain := chain } h
      | .fail => cbEnd mem c false false { d with chain := chain } h
      | .fatal => cbEnd mem c true false { d with chain := chain } h
      | .printed info =>
        (errStr mem info h).bind fun (e, h) => (free e h).bind fun h => cbEnd mem c false false { d with chain := chain } h     -- 544-547

/-- The calls of the callback in a handshake: Mbed TLS goes through the chain down to the certificate of the peer and stops when the callback fails
(src/session_mbedtls.c:506, 519, 558, 565). -/
def verifyRun (mem : Nat → Bool) : List Call → CbData → Heap → Option ((Bool × CbData) × Heap)
  | [], d, h => some ((true, d), h)
  | c :: t, d, h =>
    (verifyCb mem c d h).bind fun
      | ((true, d), h) => verifyRun mem t d h
      | r => some r

/-- `nc_is_pk_subject_public_key_info` (src/session.c:176-205): `decoded` tells whether the text could be decoded, `der` is the result of
`nc_tls_is_der_subpubkey_wrap`. -/
def isSpki (decoded : Bool) (der : Int) : Int := if !decoded then -1 else if der ≠ 0 then 1 else 0

/-- Whether the test of the configuration lets the public key of a TLS server certificate pass (src/server_config.c:1935-1939). -/
def tlsKeyPasses (r : Int) : Bool := r != 0

/-- Whether the tests of the configuration let the public key of an SSH host key or user pass (src/server_config.c:1866-1870, 1912-1916,
src/session_server_ssh.c:150-154, 190-194). -/
def sshKeyPasses (r : Int) : Bool := r == 0

/-- `nc_tls_is_der_subpubkey_wrap` of OpenSSL (src/session_openssl.c:845-862). -/
def isDerOssl (l : Lib) : Int := if l.ok then 1 else 0

end Verif.TlsMem
