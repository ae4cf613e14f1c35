import Verif.Lemmas.CertDates
import Verif.Props.CertExp

/-! # Which certificates are watched, and how they are named: properties (src/session_server.c:3298-3352, 3558-3760) -/

namespace Verif.Props
open Verif.CertDates
open Verif.CertExp (Cal Interval Exp Out certAppend defaultIntervals utc)

/-! ## C154: all certificates of the configuration are watched -/

/-- What is watched are the certificates of the configuration, one for one and in its order, each with its own expiration time. -/
theorem certs_watched {cal : Cal} {ivs : List Interval} {now : Int} {cfg : Cfg} {l : List Entry} (h : CertDates.datesGet cal ivs now cfg = .ok l) :
    l.map (fun e => some e.exp.expiration) = (certs cfg).map (·.2) := by
  rw [datesGet_run] at h
  split at h
  · cases h
  · obtain ⟨es, rfl, hlen, hes⟩ := run_ok cal ivs now _ _ _ h
    apply List.ext_getElem?
    intro i
    rw [List.getElem?_map, List.getElem?_map]
    cases hc : (certs cfg)[i]? with
    | none =>
      have : l[i]? = none := by rw [List.getElem?_eq_none_iff] at hc ⊢; omega
      rw [this]; rfl
    | some c =>
      obtain ⟨e, he, hce, _⟩ := hes i c hc
      rw [he]
      have : some e.exp.expiration = c.2 := by
        unfold certAppend at hce
        cases hd : c.2 with
        | none => rw [hd] at hce; cases hce
        | some x =>
          rw [hd] at hce
          simp only at hce
          split at hce
          · split at hce
            · injection hce with hce; rw [← hce]
            · cases hce
            · cases hce
            · cases hce
          · cases hce
          · cases hce
          · cases hce
      simp [this]

/-- If all certificates can be read, all are watched, none of them with a notification in the past. -/
theorem certs_watched_partial (cal : Cal) (hc : cal.Lawful) (ivs : List Interval) (hne : ivs ≠ []) (hpos : ∀ iv ∈ ivs, iv.period.Pos) (now : Int)
    (hnow : 0 ≤ now) (cfg : Cfg) (hr : ∀ c ∈ certs cfg, ∃ x, c.2 = some x ∧ Ascending cal x ivs) :
    ∃ l, CertDates.datesGet cal ivs now cfg = .ok l ∧ l.length = (certs cfg).length ∧ ∀ e ∈ l, now ≤ e.exp.notif := by
  have key : ∀ c ∈ certs cfg, ∃ e, certAppend cal ivs now c.2 = .ok e ∧ now ≤ e.notif := by
    intro c hcc
    obtain ⟨x, hx, ha⟩ := hr c hcc
    obtain ⟨e, _, h1, _, h3, _⟩ := cert_times_partial cal hc ivs hne hpos x now ha hnow [] (by simp)
    exact ⟨e, by rw [hx]; exact h1, h3⟩
  obtain ⟨l, hl⟩ := run_all cal ivs now (certs cfg) [] (fun c hc => (key c hc).imp fun _ h => h.1)
  obtain ⟨es, h1, hlen, hes⟩ := run_ok cal ivs now _ _ _ hl
  refine ⟨l, by rw [datesGet_run, if_neg hne]; exact hl, by rw [h1]; simpa using hlen, ?_⟩
  intro e he
  rw [h1, List.nil_append] at he
  obtain ⟨i, hi⟩ := List.mem_iff_getElem?.1 he
  have hlt : i < (certs cfg).length := by rw [← hlen]; exact (List.getElem?_eq_some_iff.1 hi).1
  obtain ⟨e', he', hce, _⟩ := hes i _ (List.getElem?_eq_getElem hlt)
  rw [hi] at he'; injection he' with he'; subst he'
  obtain ⟨e2, h2, h3⟩ := key _ (List.getElem_mem hlt)
  rw [h2] at hce; injection hce with hce; rw [← hce]; exact h3

/-- A configuration with one certificate of every kind. -/
def cdCfg : Cfg :=
  ⟨[⟨"ssh".toList, none⟩, ⟨"tls".toList, some ⟨some (some 1796040000), some [⟨"c".toList, some 1796040001⟩], none⟩⟩],
    [⟨"home".toList, [⟨"e".toList, some ⟨none, none, some [⟨"x".toList, some 1796040002⟩]⟩⟩]⟩],
    [⟨"k".toList, [⟨"c".toList, some 1796040003⟩]⟩], [⟨"b".toList, [⟨"c".toList, some 1796040004⟩]⟩]⟩

example : ∃ l, CertDates.datesGet utc defaultIntervals 1788220800 cdCfg = .ok l ∧
    l.map (fun e => e.exp.expiration) = [1796040000, 1796040001, 1796040002, 1796040003, 1796040004] := by
  cases h : CertDates.datesGet utc defaultIntervals 1788220800 cdCfg with
  | ok l =>
    have h1 := certs_watched h
    refine ⟨l, rfl, ?_⟩
    have h2 : (certs cdCfg).map (·.2) = [1796040000, 1796040001, 1796040002, 1796040003, 1796040004].map some := by decide +kernel
    rw [h2] at h1
    have h3 := congrArg (List.map (fun o : Option Int => o.getD 0)) h1
    rw [List.map_map, List.map_map] at h3
    exact h3
  | _ => exact absurd h (by decide +kernel)

/-- One certificate that cannot be read, wherever it is, and none is watched. -/
theorem certs_watched_false (cal : Cal) (ivs : List Interval) (now : Int) (cfg : Cfg) (loc : Loc) (hn : (loc, none) ∈ certs cfg) (l : List Entry) :
    CertDates.datesGet cal ivs now cfg ≠ .ok l := by
  intro h
  have h1 := certs_watched h
  have h2 : none ∈ (certs cfg).map (·.2) := List.mem_map.2 ⟨_, hn, rfl⟩
  rw [← h1] at h2
  obtain ⟨e, _, he⟩ := List.mem_map.1 h2
  cases he

/-- For example, a TLS endpoint that has no certificate yet, besides a good key in the keystore. -/
example : CertDates.datesGet utc defaultIntervals 1788220800 { cdCfg with endpts := [⟨"new".toList, some ⟨some none, none, none⟩⟩] } = .err ∧
    (Loc.server none "new".toList, none) ∈ certs { cdCfg with endpts := [⟨"new".toList, some ⟨some none, none, none⟩⟩] } := by
  refine ⟨by decide +kernel, by decide +kernel⟩

/-! ## C155: the path of a notification denotes the certificate -/

/-- The path given to the application denotes the certificate that expires, if the names in it have no apostrophe. -/
theorem notification_path_partial {cal : Cal} {ivs : List Interval} {now : Int} {cfg : Cfg} {l : List Entry}
    (h : CertDates.datesGet cal ivs now cfg = .ok l) (i : Nat) (e : Entry) (he : l[i]? = some e) :
    ∃ loc x, (certs cfg)[i]? = some (loc, some x) ∧ e.exp.expiration = x ∧ ((∀ n ∈ loc.names, '\'' ∉ n) → pieces e.path = loc.path) := by
  have h0 := certs_watched h
  rw [datesGet_run] at h
  split at h
  · cases h
  · obtain ⟨es, rfl, hlen, hes⟩ := run_ok cal ivs now _ _ _ h
    have hlt : i < (certs cfg).length := by rw [← hlen]; exact (List.getElem?_eq_some_iff.1 he).1
    have hc := List.getElem?_eq_getElem hlt
    obtain ⟨e', he', _, hp⟩ := hes i _ hc
    rw [he] at he'; injection he' with he'; subst he'
    have hx := congrArg (fun l : List (Option Int) => l[i]?) h0
    simp only [List.getElem?_map, he, hc, Option.map_some, Option.some.injEq] at hx
    generalize hq : (certs cfg)[i] = q at hc hp hx
    obtain ⟨loc, d⟩ := q
    refine ⟨loc, e.exp.expiration, by rw [hc]; simp only at hx; rw [hx], rfl, fun hn => ?_⟩
    rw [hp]
    exact xpath_pieces loc hn

/-- Different certificates have different paths. -/
theorem notification_paths_differ_partial {cal : Cal} {ivs : List Interval} {now : Int} {cfg : Cfg} {l : List Entry}
    (h : CertDates.datesGet cal ivs now cfg = .ok l) (hn : ∀ c ∈ certs cfg, ∀ n ∈ c.1.names, '\'' ∉ n) (i j : Nat) (a b : Entry)
    (ha : l[i]? = some a) (hb : l[j]? = some b) (hp : a.path = b.path) : ((certs cfg)[i]?.map (·.1)) = ((certs cfg)[j]?.map (·.1)) := by
  obtain ⟨la, xa, h1, _, h2⟩ := notification_path_partial h i a ha
  obtain ⟨lb, xb, h3, _, h4⟩ := notification_path_partial h j b hb
  have e1 := h2 (hn _ (List.mem_of_getElem? h1))
  have e2 := h4 (hn _ (List.mem_of_getElem? h3))
  rw [h1, h3, loc_path_injective (e1.symm.trans ((congrArg pieces hp).trans e2))]
  rfl

/-- The paths of the configuration above. -/
def cdPath (o : Out (List Entry)) (i : Nat) : Option Text :=
  match o with
  | .ok l => l[i]?.map (·.path)
  | _ => none

example : cdPath (CertDates.datesGet utc defaultIntervals 1788220800 cdCfg) 3 =
    some "/ietf-keystore:keystore/asymmetric-keys/asymmetric-key[name='k']/certificates/certificate[name='c']/certificate-expiration/expiration-date".toList := by
  decide +kernel

example : cdPath (CertDates.datesGet utc defaultIntervals 1788220800 cdCfg) 1 =
    some "/ietf-netconf-server:netconf-server/listen/endpoints/endpoint[name='tls']/tls/tls-server-parameters/client-authentication/ca-certs/inline-definition/certificate[name='c']/certificate-expiration/expiration-date".toList := by
  decide +kernel

example : ∀ c ∈ certs cdCfg, ∀ n ∈ c.1.names, '\'' ∉ n := by decide +kernel

/-- The notification of the certificate `o'c` of the key `k`. -/
def cdOdd : Entry :=
  ⟨⟨[1788091203, 1794830403, 1795435203], 0, 1796040003, 1790769603⟩,
    "/ietf-keystore:keystore/asymmetric-keys/asymmetric-key[name='k']/certificates/certificate[name='o'c']/certificate-expiration/expiration-date".toList⟩

/-- A name may have an apostrophe, and then the path is that of no certificate. -/
theorem notification_path_false :
    ¬ ∀ (cal : Cal) (ivs : List Interval) (now : Int) (cfg : Cfg) (l : List Entry), CertDates.datesGet cal ivs now cfg = .ok l →
      ∀ e ∈ l, ∃ loc : Loc, pieces e.path = loc.path := by
  intro h
  obtain ⟨loc, hl⟩ := h utc defaultIntervals 1788220800 ⟨[], [], [⟨"k".toList, [⟨"o'c".toList, some 1796040003⟩]⟩], []⟩ [cdOdd] (by decide +kernel) cdOdd
    (List.mem_singleton.2 rfl)
  have h3 : (pieces cdOdd.path).length = 6 := by decide +kernel
  have h2 : 6 = loc.path.length := h3.symm.trans (congrArg List.length hl)
  clear hl h3
  have h5 : loc.path.length % 2 = 1 := by
    cases loc with
    | server ch e => cases ch <;> simp only [Loc.path, endptPieces, List.length_append, List.length_cons, List.length_nil]
    | ca ch e c => cases ch <;> simp only [Loc.path, endptPieces, List.length_append, List.length_cons, List.length_nil]
    | ee ch e c => cases ch <;> simp only [Loc.path, endptPieces, List.length_append, List.length_cons, List.length_nil]
    | key k c => simp only [Loc.path, endptPieces, List.length_append, List.length_cons, List.length_nil]
    | bag k c => simp only [Loc.path, endptPieces, List.length_append, List.length_cons, List.length_nil]
  omega

end Verif.Props
