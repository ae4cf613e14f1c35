import Verif.Spec.PeerInfo

/-!
# Lemmas on addresses
-/

namespace Verif.PeerInfo

theorem htons_portOf (p : Nat) (h : p < 65536) : 256 * (htons p).1 + (htons p).2 = p ∧ (htons p).1 < 256 ∧ (htons p).2 < 256 := by
  simp only [htons]; omega

theorem ntohs_portOf (a : Inet) : ntohs a.port = portOf a := by simp only [ntohs, portOf]; omega

theorem ntop_some (L : Lib) (h : L.Good) (f : Fam) (n : Nat) (hn : n < f.size) : ntop L f n (strLen f) = some (L.text f n) := by
  cases f with
  | v4 => have := h.short4 n hn; exact if_pos (by simp only [strLen]; omega)
  | v6 => have := h.short6 n hn; exact if_pos (by simp only [strLen]; omega)

theorem saddr2str_some (L : Lib) (h : L.Good) (a : Inet) (ha : a.num < a.fam.size) : saddr2str L a = some (L.text a.fam a.num, portOf a) := by
  simp [saddr2str, ntop_some L h a.fam a.num ha, ntohs_portOf]

theorem text_inj (L : Lib) (h : L.Good) (f g : Fam) (n m : Nat) (hn : n < f.size) (hm : m < g.size) (he : L.text f n = L.text g m) : f = g ∧ n = m := by
  have h1 := h.round f n hn
  have h2 := h.round g m hm
  rw [he] at h1
  cases f <;> cases g
  · rw [h2] at h1; injection h1 with h1; exact ⟨rfl, h1.symm⟩
  · exact absurd (h.colon6 _ _ h2) (h.colon4 _ _ h1)
  · exact absurd (h.colon6 _ _ h1) (h.colon4 _ _ h2)
  · rw [h2] at h1; injection h1 with h1; exact ⟨rfl, h1.symm⟩

theorem digits_len (p : Nat) (h : p < 65536) : (Nat.toDigits 10 p).length ≤ 5 := by
  have := Nat.length_toDigits_le_iff (b := 10) (n := p) (k := 5) (by omega) (by omega)
  exact this.2 (by omega)

theorem portText_eq (p : Nat) (h : p < 65536) : (portText p).foldl (fun n c => 10 * n + (c.toNat - '0'.toNat)) 0 = p := by
  rw [portText, List.take_of_length_le (digits_len p h)]
  rw [← Nat.ofDigitChars_eq_foldl]
  exact Nat.ofDigitChars_toDigits (by omega) (by omega)

theorem getaddrinfo_eq (resolve : Text → List Inet) (host : Text) (p : Nat) (h : p < 65536) :
    getaddrinfo resolve host (portText p) = (resolve host).map (fun a => { a with port := htons p }) := by
  rw [getaddrinfo, portText_eq p h]

theorem accept_inet (L : Lib) (h : L.Good) (own : Text) (a : Inet) (ha : a.Ok) : acceptInfo L own (.inet a) = some (some (L.text a.fam a.num), portOf a) := by
  obtain ⟨f, n, sc, p⟩ := a
  have := ntop_some L h f n ha.1
  cases f
  · simp only [strLen] at this; simp [acceptInfo, sockHostInet, this]; simp [portOf, ntohs]; omega
  · simp only [strLen] at this; simp [acceptInfo, sockHostInet6, this]; simp [portOf, ntohs]; omega

theorem sockConnect_iff (L : Lib) (h : L.Good) (resolve : Text → List Inet) (hr : Resolver resolve) (host : Text) (p : Nat) (hp : p < 65536) (pick : Nat) :
    sockConnect L resolve host p pick =
      ((resolve host)[pick]?).map (fun a => ({ a with port := htons p }, some (L.text a.fam a.num))) := by
  rw [sockConnect, getaddrinfo_eq resolve host p hp, List.getElem?_map]
  cases hx : (resolve host)[pick]? with
  | none => rfl
  | some a =>
    have ha := hr host a (List.mem_of_getElem? hx)
    have := saddr2str_some L h { a with port := htons p } ha.1
    simp [this]

theorem sockConnect_tells (L : Lib) (h : L.Good) (resolve : Text → List Inet) (hr : Resolver resolve) (host : Text) (p : Nat) (hp : p < 65536) (pick : Nat)
    (c : Inet × Option Text) (hc : sockConnect L resolve host p pick = some c) :
    c.1.Ok ∧ portOf c.1 = p ∧ c.2 = some (L.text c.1.fam c.1.num) ∧ ∃ a ∈ resolve host, c.1 = { a with port := c.1.port } := by
  rw [sockConnect_iff L h resolve hr host p hp] at hc
  cases hx : (resolve host)[pick]? with
  | none => rw [hx] at hc; exact absurd hc (by simp)
  | some a =>
    rw [hx] at hc
    simp only [Option.map_some, Option.some.injEq] at hc
    subst hc
    have ha := hr host a (List.mem_of_getElem? hx)
    have hh := htons_portOf p hp
    exact ⟨⟨ha.1, hh.2.1, hh.2.2, ha.2.2.2⟩, hh.1, rfl, a, List.mem_of_getElem? hx, rfl⟩

theorem upd_head (w : World) (hw : Fresh w) (x : Sock) (hx : x.fd = w.next) (n : Nat) (g : Sock → Sock) :
    upd ⟨x :: w.socks, n⟩ w.next g = ⟨g x :: w.socks, n⟩ := by
  simp only [upd, List.map_cons, hx, if_true, World.mk.injEq, List.cons.injEq, true_and, and_true]
  have : ∀ s ∈ w.socks, (fun s => if s.fd = w.next then g s else s) s = id s := by
    intro s hs; have := hw s hs; simp only [id_eq]; rw [if_neg (by omega)]
  rw [List.map_congr_left this, List.map_id]

theorem close_head (w : World) (hw : Fresh w) (x : Sock) (hx : x.fd = w.next) (n : Nat) :
    close ⟨x :: w.socks, n⟩ w.next = ⟨w.socks, n⟩ := by
  have h1 : w.socks.filter (fun s => decide (s.fd ≠ w.next)) = w.socks := by
    rw [List.filter_eq_self]; intro s hs; have := hw s hs; simp only [decide_eq_true_eq]; omega
  simp only [close, World.mk.injEq, and_true]
  rw [List.filter_cons_of_neg (by simp [hx])]
  exact h1

theorem any_head (w : World) (x : Sock) (hx : x.fd = w.next) (f : Fam) (hf : x.fam = f) (n : Nat) :
    (World.mk (x :: w.socks) n).socks.any (fun s => s.fd == w.next && s.fam == f) = true := by
  simp [hx, hf]

theorem any_head' (w : World) (hw : Fresh w) (x : Sock) (hx : x.fd = w.next) (f : Fam) (n : Nat) :
    (World.mk (x :: w.socks) n).socks.any (fun s => s.fd == w.next && s.fam == f) = (x.fam == f) := by
  simp only [List.any_cons, hx, beq_self_eq_true, Bool.true_and]
  have : w.socks.any (fun s => s.fd == w.next && s.fam == f) = false := by
    rw [List.any_eq_false]; intro s hs; have := hw s hs
    have h2 : ¬ s.fd = w.next := by omega
    simp [h2]
  rw [this, Bool.or_false]

theorem bindCall_head (e : Env) (w : World) (hw : Fresh w) (x : Sock) (hx : x.fd = w.next) (n : Nat) (a : Inet) :
    bindCall e ⟨x :: w.socks, n⟩ w.next a = if x.fam = a.fam ∧ e.bindOk a = true then some ⟨{ x with bound := some a } :: w.socks, n⟩ else none := by
  rw [bindCall, any_head' w hw x hx, upd_head w hw x hx]
  by_cases h1 : x.fam = a.fam <;> by_cases h2 : e.bindOk a = true <;> simp [h1, h2]

theorem connectCall_head (e : Env) (w : World) (hw : Fresh w) (x : Sock) (hx : x.fd = w.next) (n : Nat) (a : Inet) :
    connectCall e ⟨x :: w.socks, n⟩ w.next a = if x.fam = a.fam ∧ e.connectOk a = true then some ⟨{ x with peer := some a } :: w.socks, n⟩ else none := by
  rw [connectCall, any_head' w hw x hx, upd_head w hw x hx]
  by_cases h1 : x.fam = a.fam <;> by_cases h2 : e.connectOk a = true <;> simp [h1, h2]

theorem bindInet_head (L : Lib) (e : Env) (w : World) (hw : Fresh w) (x : Sock) (hx : x.fd = w.next) (n : Nat) (address : Option Text) (port : Nat)
    (hf : Fam) (hxf : x.fam = hf) :
    bindInet L e ⟨x :: w.socks, n⟩ w.next address port (hf == .v4) =
      match L.pton hf (address.getD (if hf = .v4 then "0.0.0.0".toList else "::".toList)) with
      | none => none
      | some k => if e.bindOk ⟨hf, k, 0, htons port⟩ = true then some ⟨{ x with bound := some ⟨hf, k, 0, htons port⟩ } :: w.socks, n⟩ else none := by
  cases hf with
  | v4 =>
    simp only [bindInet, beq_self_eq_true, if_true]
    have hz : ("0.0.0.0".toList : List Char) = ['0', '.', '0', '.', '0', '.', '0'] := by decide
    rw [hz]
    cases L.pton .v4 (address.getD ['0', '.', '0', '.', '0', '.', '0']) with
    | none => rfl
    | some k => simp only; rw [bindCall_head e w hw x hx]; simp [hxf]
  | v6 =>
    have hz : ("::".toList : List Char) = [':', ':'] := by decide
    have h1 : (Fam.v6 == Fam.v4) = false := by decide
    have h2 : ¬ (Fam.v6 = Fam.v4) := by decide
    simp only [bindInet, h1, Bool.false_eq_true, if_false, h2]
    rw [hz]
    cases L.pton .v6 (address.getD [':', ':']) with
    | none => rfl
    | some k => simp only; rw [bindCall_head e w hw x hx]; simp [hxf]

/-! ## A library that is as documented: addresses written as numbers -/

/-- The number in a text of digits. -/
def numOf (t : Text) : Option Nat := if t.all Char.isDigit then some (Nat.ofDigitChars 10 t 0) else none

/-- Addresses as numbers, with two colons in front for IPv6. -/
def numLib : Lib where
  text f n := match f with
    | .v4 => Nat.toDigits 10 n
    | .v6 => ':' :: ':' :: Nat.toDigits 10 n
  pton f t := match f with
    | .v4 =>
      if t = ['0', '.', '0', '.', '0', '.', '0'] then some 0
      else if t = [] then none
      else (numOf t).bind (fun n => if n < 2 ^ 32 then some n else none)
    | .v6 =>
      match t with
      | ':' :: ':' :: r => (numOf r).bind (fun n => if n < 2 ^ 128 then some n else none)
      | _ => none

theorem toDigits_all (n : Nat) : (Nat.toDigits 10 n).all Char.isDigit = true := by
  rw [List.all_eq_true]; intro c hc; exact Nat.isDigit_of_mem_toDigits (by omega) (by omega) hc

theorem numOf_toDigits (n : Nat) : numOf (Nat.toDigits 10 n) = some n := by
  rw [numOf, toDigits_all, if_pos rfl, Nat.ofDigitChars_toDigits (by omega) (by omega)]

theorem numOf_digit (t : Text) (n : Nat) (h : numOf t = some n) (c : Char) (hc : c ∈ t) : c.isDigit = true := by
  rw [numOf] at h
  by_cases ha : t.all Char.isDigit = true
  · exact List.all_eq_true.1 ha c hc
  · rw [if_neg ha] at h; exact absurd h (by simp)

theorem numLib_v4 (t : Text) (n : Nat) (h : numLib.pton .v4 t = some n) :
    n < 2 ^ 32 ∧ (t = ['0', '.', '0', '.', '0', '.', '0'] ∨ ∀ c ∈ t, c.isDigit = true) := by
  simp only [numLib] at h
  by_cases h0 : t = ['0', '.', '0', '.', '0', '.', '0']
  · rw [if_pos h0] at h; injection h with h; exact ⟨by omega, Or.inl h0⟩
  · rw [if_neg h0] at h
    by_cases h1 : t = []
    · rw [if_pos h1] at h; exact absurd h (by simp)
    · rw [if_neg h1] at h
      cases hn : numOf t with
      | none => rw [hn] at h; exact absurd h (by simp)
      | some k =>
        rw [hn] at h
        simp only [Option.bind_some] at h
        by_cases hk : k < 2 ^ 32
        · rw [if_pos hk] at h; injection h with h; exact ⟨by omega, Or.inr (fun c hc => numOf_digit t k hn c hc)⟩
        · rw [if_neg hk] at h; exact absurd h (by simp)

theorem numLib_v6 (t : Text) (n : Nat) (h : numLib.pton .v6 t = some n) :
    n < 2 ^ 128 ∧ ∃ r, t = ':' :: ':' :: r ∧ ∀ c ∈ r, c.isDigit = true := by
  simp only [numLib] at h
  split at h
  · rename_i r
    cases hn : numOf r with
    | none => rw [hn] at h; exact absurd h (by simp)
    | some k =>
      rw [hn] at h
      simp only [Option.bind_some] at h
      by_cases hk : k < 2 ^ 128
      · rw [if_pos hk] at h; injection h with h; exact ⟨by omega, r, rfl, fun c hc => numOf_digit r k hn c hc⟩
      · rw [if_neg hk] at h; exact absurd h (by simp)
  · exact absurd h (by simp)

theorem numLib_good : numLib.Good where
  round := by
    intro f n hn
    cases f with
    | v4 =>
      have hd := toDigits_all n
      have h0 : Nat.toDigits 10 n ≠ ['0', '.', '0', '.', '0', '.', '0'] := by
        intro he; rw [he] at hd; exact absurd hd (by decide)
      have h1 : Nat.toDigits 10 n ≠ [] := Nat.toDigits_ne_nil
      have h2 : n < 2 ^ 32 := hn
      simp only [numLib]
      rw [if_neg h0, if_neg h1, numOf_toDigits, Option.bind_some, if_pos h2]
    | v6 =>
      have h2 : n < 2 ^ 128 := hn
      simp only [numLib]
      rw [numOf_toDigits, Option.bind_some, if_pos h2]
  short4 := by
    intro n hn
    have := (Nat.length_toDigits_le_iff (b := 10) (n := n) (k := 10) (by omega) (by omega)).2 (by omega)
    simp only [numLib]; omega
  short6 := by
    intro n hn
    have := (Nat.length_toDigits_le_iff (b := 10) (n := n) (k := 39) (by omega) (by omega)).2 (by omega)
    simp only [numLib, List.length_cons]; omega
  range := by
    intro f t n h
    cases f with
    | v4 => exact (numLib_v4 t n h).1
    | v6 => exact (numLib_v6 t n h).1
  colon4 := by
    intro t n h hc
    rcases (numLib_v4 t n h).2 with h0 | h0
    · rw [h0] at hc; exact absurd hc (by decide)
    · exact absurd (h0 _ hc) (by decide)
  colon6 := by
    intro t n h
    obtain ⟨_, r, hr, _⟩ := numLib_v6 t n h
    rw [hr]; simp
  noZone := by
    intro f t n h hc
    cases f with
    | v4 =>
      rcases (numLib_v4 t n h).2 with h0 | h0
      · rw [h0] at hc; exact absurd hc (by decide)
      · exact absurd (h0 _ hc) (by decide)
    | v6 =>
      obtain ⟨_, r, hr, hd⟩ := numLib_v6 t n h
      rw [hr] at hc
      simp only [List.mem_cons] at hc
      rcases hc with hc | hc | hc
      · exact absurd hc (by decide)
      · exact absurd hc (by decide)
      · exact absurd (hd _ hc) (by decide)
  any4 := by decide +kernel
  any6 := by decide +kernel
  empty := by intro f; cases f <;> rfl

end Verif.PeerInfo
