/-!
# Algorithm lists (src/server_config.c:2447-2525, 3392-3428; src/session_openssl.c:1387-1425; src/session_mbedtls.c:1822-1849)

Lists are single C strings with a delimiter; texts are `List Char` without NUL.
-/

namespace Verif.AlgList

/-- C strings (src/server_config.c:2447-2475). -/
abbrev Text := List Char

/-- Result of an edit (src/server_config.c:2448-2475): the new string, return value 1 with the string unchanged, or undefined behaviour. -/
inductive Res where
  | ok (s : Text)
  | err
  | ub
  deriving DecidableEq, Repr

/-- `nc_server_config_delete_substring` (src/server_config.c:2448-2475) at one position: `pre` is the reversed text before it, `hay` the text from it on;
`first` says `substr == haystack`, that is, the position is the start or directly follows the previous occurrence (line 2469).
`strstr` is the search position by position (for a non-empty needle). `memmove` (2461) does not copy the terminator, so the old text behind
the moved part stays. -/
def scan (needle : Text) (delim : Char) : (pre hay : Text) → (first : Bool) → Res
  | _, [], _ => .err
  | pre, c :: hay, first =>
    if needle.isPrefixOf (c :: hay) then
      let after := (c :: hay)[needle.length]?
      if after = some delim ∧ (first = true ∨ pre.head? = some delim) then
        let rest := (c :: hay).drop (needle.length + 1)
        .ok (pre.reverse ++ rest ++ (c :: hay).drop rest.length)
      else if pre = [] then .ub                                        -- *(substr - 1) before the string, 2464
      else if pre.head? = some delim ∧ after = none then .ok pre.tail.reverse
      else scan needle delim (c :: pre) hay true
    else scan needle delim (c :: pre) hay false

/-- The call with the whole string (src/server_config.c:2447-2475); a NULL list is passed to `strstr` (undefined). -/
def deleteSubstring (s : Option Text) (needle : Text) (delim : Char) : Res :=
  match s with
  | none => .ub
  | some s => scan needle delim [] s true

/-- Conversion of the YANG identity to the libssh name (src/server_config.c:2484-2496). -/
def algName (a : Text) : Text :=
  if "openssh-".toList.isPrefixOf a then a.drop 8 ++ "@openssh.com".toList
  else if "libssh-".toList.isPrefixOf a then a.drop 7 ++ "@libssh.org".toList
  else a

/-- Appending with a delimiter (src/server_config.c:2499-2509; src/session_openssl.c:1411-1423). -/
def append (s : Option Text) (a : Text) (delim : Char) : Text :=
  match s with
  | none => a
  | some s => s ++ delim :: a

/-- `nc_server_config_transport_params` (src/server_config.c:2478-2524), `create` says the operation is create or replace. -/
def transportParams (s : Option Text) (a : Text) (create : Bool) : Res :=
  if create then .ok (append s (algName a) ',') else deleteSubstring s (algName a) ','

/-- `toupper` for ASCII (src/session_openssl.c:1400, src/session_mbedtls.c:1843). -/
def upper (c : Char) : Char := if 'a' ≤ c ∧ c ≤ 'z' then Char.ofNat (c.toNat - 32) else c

/-- `nc_tls_process_cipher_suite_wrap` with OpenSSL (src/session_openssl.c:1387-1407). -/
def opensslName (a : Text) : Text := a.map fun c => if c = '-' then '_' else upper c

/-- The five TLS 1.3 suites (src/session_mbedtls.c:1828-1830). -/
def tls13 : List Text :=
  ["tls-aes-256-gcm-sha384".toList, "tls-aes-128-gcm-sha256".toList, "tls-chacha20-poly1305-sha256".toList,
   "tls-aes-128-ccm-sha256".toList, "tls-aes-128-ccm-8-sha256".toList]

/-- `nc_tls_process_cipher_suite_wrap` with mbedTLS (src/session_mbedtls.c:1822-1849): the loop writes from offset 0, over the
prefix printed at 1834. -/
def mbedtlsName (a : Text) : Text := if a ∈ tls13 then (a.drop 4).map upper else a.map upper

/-- `nc_server_config_create_cipher_suite` and `nc_server_config_del_cipher_suite` with OpenSSL (src/server_config.c:3392-3428). -/
def cipherSuite (s : Option Text) (a : Text) (create : Bool) : Res :=
  if create then .ok (append s (opensslName a) ':') else deleteSubstring s a ':'

/-- The array of cipher numbers with mbedTLS (src/session_p.h:281-282): size of the allocation in bytes, and the numbers. -/
structure MbedArr where
  bytes : Nat
  ids : List Nat
  deriving DecidableEq, Repr

/-- `nc_tls_append_cipher_suite_wrap` with mbedTLS (src/session_mbedtls.c:1851-1879) for a known suite: `ciphers` is a `void *`, so `sizeof *opts->ciphers`
is 1 (GNU C); numbers are `int`s of 4 bytes. `none` is a write outside the allocation. -/
def mbedAppend (a : Option MbedArr) (id : Nat) : Option MbedArr :=
  let sizeofElem := 1
  let (bytes, count) :=
    match a with
    | none => (2 * sizeofElem, 0)                                      -- 1864
    | some a => ((a.ids.length + 2) * sizeofElem, a.ids.length)        -- 1870
  if 4 * (count + 1) ≤ bytes ∧ 4 * (count + 2) ≤ bytes then            -- 1866/1872 and 1877
    some ⟨bytes, (match a with | none => [] | some a => a.ids) ++ [id]⟩
  else none

end Verif.AlgList
