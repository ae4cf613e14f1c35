import Verif.Spec.CertDates

/-! # Lemmas for watched certificates -/

namespace Verif.CertDates
open Verif.CertExp (Cal Interval Exp Out certAppend)

theorem pieces_cons_ne {c : Char} (h : c ≠ '\'') (t : Text) : pieces (c :: t) = match pieces t with | [] => [[c]] | p :: ps => (c :: p) :: ps := by
  rw [pieces.eq_2, if_neg h]
  cases pieces t <;> rfl

theorem pieces_quote : ∀ (a b : Text), '\'' ∉ a → pieces (a ++ '\'' :: b) = a :: pieces b
  | [], b, _ => by simp [pieces]
  | c :: a, b, h => by
    have hc : c ≠ '\'' := fun e => h (by simp [e])
    have ha : '\'' ∉ a := fun e => h (List.mem_cons_of_mem _ e)
    rw [List.cons_append, pieces_cons_ne hc, pieces_quote a b ha]

theorem pieces_plain : ∀ (a : Text), '\'' ∉ a → pieces a = [a]
  | [], _ => rfl
  | c :: a, h => by
    have hc : c ≠ '\'' := fun e => h (by simp [e])
    have ha : '\'' ∉ a := fun e => h (List.mem_cons_of_mem _ e)
    rw [pieces_cons_ne hc, pieces_plain a ha]

/-- The aux structure for a place. -/
def Loc.cp : Loc → Cp
  | .server ch e => ⟨ch, some e, none, none, none, none, none, none⟩
  | .ca ch e c => ⟨ch, some e, some c, none, none, none, none, none⟩
  | .ee ch e c => ⟨ch, some e, none, some c, none, none, none, none⟩
  | .key k c => ⟨none, none, none, none, some k, some c, none, none⟩
  | .bag b c => ⟨none, none, none, none, none, none, some b, some c⟩

/-- Appending certificates one after the other. -/
def run (cal : Cal) (ivs : List Interval) (now : Int) : List (Loc × Option Int) → List Entry → Out (List Entry)
  | [], acc => .ok acc
  | c :: cs, acc => andThen (append cal ivs now c.2 c.1.cp acc) (run cal ivs now cs)

theorem andThen_assoc (o : Out (List Entry)) (f g : List Entry → Out (List Entry)) : andThen (andThen o f) g = andThen o (fun a => andThen (f a) g) := by
  cases o <;> rfl

theorem andThen_ok (o : Out (List Entry)) : andThen o .ok = o := by
  cases o <;> rfl

theorem run_append (cal : Cal) (ivs : List Interval) (now : Int) : ∀ (a b : List (Loc × Option Int)),
    run cal ivs now (a ++ b) = fun acc => andThen (run cal ivs now a acc) (run cal ivs now b)
  | [], _ => rfl
  | c :: a, b => by
    funext acc
    show andThen _ (run cal ivs now (a ++ b)) = andThen (andThen _ _) _
    rw [run_append cal ivs now a b, andThen_assoc]

theorem appendAll_run (cal : Cal) (ivs : List Interval) (now : Int) (f : Text → Loc) : ∀ (cs : List Cert),
    appendAll cal ivs now (fun c => (f c).cp) cs = run cal ivs now (cs.map (fun c => (f c.name, c.data)))
  | [] => rfl
  | c :: cs => by
    funext acc
    show andThen _ (appendAll cal ivs now (fun c => (f c).cp) cs) = andThen _ _
    rw [appendAll_run cal ivs now f cs]

theorem endptGet_run (cal : Cal) (ivs : List Interval) (now : Int) (ch : Option Text) (name : Text) (t : Tls) :
    endptGet cal ivs now ch name t = run cal ivs now (tlsCerts ch name t) := by
  have h1 : serverGet cal ivs now ch name t = run cal ivs now (t.cert.toList.map (fun d => (Loc.server ch name, d))) := by
    funext acc
    unfold serverGet
    cases t.cert with
    | none => rfl
    | some d => exact (andThen_ok _).symm
  have h2 : caGet cal ivs now ch name t = run cal ivs now ((t.ca.getD []).map (fun c => (Loc.ca ch name c.name, c.data))) := by
    funext acc
    unfold caGet
    cases t.ca with
    | none => rfl
    | some l => exact congrFun (appendAll_run cal ivs now (Loc.ca ch name) l) acc
  have h3 : eeGet cal ivs now ch name t = run cal ivs now ((t.ee.getD []).map (fun c => (Loc.ee ch name c.name, c.data))) := by
    funext acc
    unfold eeGet
    cases t.ee with
    | none => rfl
    | some l => exact congrFun (appendAll_run cal ivs now (Loc.ee ch name) l) acc
  funext acc
  unfold endptGet tlsCerts
  rw [run_append, run_append, h1, h2, h3]
  exact (andThen_assoc _ _ _).symm

theorem endptsGet_run (cal : Cal) (ivs : List Interval) (now : Int) (ch : Option Text) : ∀ (es : List Endpt),
    endptsGet cal ivs now ch es = run cal ivs now (endptCerts ch es)
  | [] => rfl
  | e :: es => by
    funext acc
    unfold endptsGet endptCerts
    rw [List.flatMap_cons, run_append]
    cases e.tls with
    | none => exact congrFun (endptsGet_run cal ivs now ch es) acc
    | some t =>
      simp only
      rw [endptGet_run, endptsGet_run cal ivs now ch es]
      rfl

theorem chsGet_run (cal : Cal) (ivs : List Interval) (now : Int) : ∀ (gs : List (Group Endpt)),
    chsGet cal ivs now gs = run cal ivs now (gs.flatMap (fun g => endptCerts (some g.name) g.elems))
  | [] => rfl
  | g :: gs => by
    funext acc
    unfold chsGet
    rw [List.flatMap_cons, run_append, endptsGet_run, chsGet_run cal ivs now gs]

theorem keysGet_run (cal : Cal) (ivs : List Interval) (now : Int) : ∀ (gs : List (Group Cert)),
    keysGet cal ivs now gs = run cal ivs now (gs.flatMap (fun g => g.elems.map (fun c => (Loc.key g.name c.name, c.data))))
  | [] => rfl
  | g :: gs => by
    funext acc
    have := appendAll_run cal ivs now (Loc.key g.name) g.elems
    simp only [Loc.cp] at this
    unfold keysGet
    rw [List.flatMap_cons, run_append, this, keysGet_run cal ivs now gs]

theorem bagsGet_run (cal : Cal) (ivs : List Interval) (now : Int) : ∀ (gs : List (Group Cert)),
    bagsGet cal ivs now gs = run cal ivs now (gs.flatMap (fun g => g.elems.map (fun c => (Loc.bag g.name c.name, c.data))))
  | [] => rfl
  | g :: gs => by
    funext acc
    have := appendAll_run cal ivs now (Loc.bag g.name) g.elems
    simp only [Loc.cp] at this
    unfold bagsGet
    rw [List.flatMap_cons, run_append, this, bagsGet_run cal ivs now gs]

theorem datesGet_run (cal : Cal) (ivs : List Interval) (now : Int) (cfg : Cfg) :
    datesGet cal ivs now cfg = if ivs = [] then .err else run cal ivs now (certs cfg) [] := by
  unfold datesGet certs
  split
  · rfl
  · rw [run_append, run_append, run_append, endptsGet_run, chsGet_run, keysGet_run, bagsGet_run]
    simp only [andThen_assoc]

theorem run_ok (cal : Cal) (ivs : List Interval) (now : Int) : ∀ (cs : List (Loc × Option Int)) (acc l : List Entry), run cal ivs now cs acc = .ok l →
    ∃ es, l = acc ++ es ∧ es.length = cs.length ∧
      ∀ (i : Nat) c, cs[i]? = some c → ∃ e, es[i]? = some e ∧ certAppend cal ivs now c.2 = .ok e.exp ∧ e.path = xpath c.1.cp
  | [], acc, l, h => by injection h with h; exact ⟨[], by simp [h], rfl, by simp⟩
  | c :: cs, acc, l, h => by
    simp only [run, append] at h
    cases hc : certAppend cal ivs now c.2 with
    | ok e =>
      simp only [hc, andThen] at h
      obtain ⟨es, h1, h2, h3⟩ := run_ok cal ivs now cs _ l h
      refine ⟨⟨e, xpath c.1.cp⟩ :: es, by simp [h1], by simp [h2], ?_⟩
      intro i x hx
      cases i with
      | zero => simp only [List.getElem?_cons_zero, Option.some.injEq] at hx; subst hx; exact ⟨_, rfl, hc, rfl⟩
      | succ i => simp only [List.getElem?_cons_succ] at hx ⊢; exact h3 i x hx
    | err => simp only [hc, andThen] at h; cases h
    | ub => simp only [hc, andThen] at h; cases h
    | hang => simp only [hc, andThen] at h; cases h

theorem run_all (cal : Cal) (ivs : List Interval) (now : Int) : ∀ (cs : List (Loc × Option Int)) (acc : List Entry),
    (∀ c ∈ cs, ∃ e, certAppend cal ivs now c.2 = .ok e) → ∃ l, run cal ivs now cs acc = .ok l
  | [], acc, _ => ⟨acc, rfl⟩
  | c :: cs, acc, h => by
    obtain ⟨e, he⟩ := h c List.mem_cons_self
    simp only [run, append, he, andThen]
    exact run_all cal ivs now cs _ (fun x hx => h x (List.mem_cons_of_mem _ hx))

theorem endpt_pieces (cp : Cp) (rest : Text) (ch : Option Text) (e : Text) (h1 : cp.ch = ch) (h2 : cp.endpt = some e) (hc : ∀ c, ch = some c → '\'' ∉ c)
    (he : '\'' ∉ e) (q : Text) (hq : '\'' ∉ q) : pieces (endptPath cp ++ (q ++ '\'' :: rest)) = endptPieces ch e q ++ pieces rest := by
  unfold endptPath endptPieces
  rw [h1, h2]
  cases ch with
  | some c =>
    have e1 : "/ietf-netconf-server:netconf-server/call-home/netconf-client[name='".toList =
      "/ietf-netconf-server:netconf-server/call-home/netconf-client[name=".toList ++ ['\''] := by decide +kernel
    have e2 : "']/endpoints/endpoint[name='".toList = '\'' :: ("]/endpoints/endpoint[name=".toList ++ ['\'']) := by decide +kernel
    have e3 : "']/tls/tls-server-parameters".toList = '\'' :: "]/tls/tls-server-parameters".toList := by decide +kernel
    simp only [str, Option.getD_some, e1, e2, e3, List.append_assoc, List.cons_append, List.nil_append]
    rw [pieces_quote _ _ (by decide +kernel), pieces_quote _ _ (hc c rfl), pieces_quote _ _ (by decide +kernel), pieces_quote _ _ he,
      ← List.append_assoc, pieces_quote _ _ (by rw [List.mem_append]; exact fun h => h.elim (by decide +kernel) hq)]
  | none =>
    have e1 : "/ietf-netconf-server:netconf-server/listen/endpoints/endpoint[name='".toList =
      "/ietf-netconf-server:netconf-server/listen/endpoints/endpoint[name=".toList ++ ['\''] := by decide +kernel
    have e3 : "']/tls/tls-server-parameters".toList = '\'' :: "]/tls/tls-server-parameters".toList := by decide +kernel
    simp only [str, Option.getD_some, e1, e3, List.append_assoc, List.cons_append, List.nil_append]
    rw [pieces_quote _ _ (by decide +kernel), pieces_quote _ _ he, ← List.append_assoc,
      pieces_quote _ _ (by rw [List.mem_append]; exact fun h => h.elim (by decide +kernel) hq)]

theorem endpt_pieces_end (cp : Cp) (ch : Option Text) (e : Text) (h1 : cp.ch = ch) (h2 : cp.endpt = some e) (hc : ∀ c, ch = some c → '\'' ∉ c)
    (he : '\'' ∉ e) (q : Text) (hq : '\'' ∉ q) : pieces (endptPath cp ++ q) = endptPieces ch e q := by
  unfold endptPath endptPieces
  rw [h1, h2]
  cases ch with
  | some c =>
    have e1 : "/ietf-netconf-server:netconf-server/call-home/netconf-client[name='".toList =
      "/ietf-netconf-server:netconf-server/call-home/netconf-client[name=".toList ++ ['\''] := by decide +kernel
    have e2 : "']/endpoints/endpoint[name='".toList = '\'' :: ("]/endpoints/endpoint[name=".toList ++ ['\'']) := by decide +kernel
    have e3 : "']/tls/tls-server-parameters".toList = '\'' :: "]/tls/tls-server-parameters".toList := by decide +kernel
    simp only [str, Option.getD_some, e1, e2, e3, List.append_assoc, List.cons_append, List.nil_append]
    rw [pieces_quote _ _ (by decide +kernel), pieces_quote _ _ (hc c rfl), pieces_quote _ _ (by decide +kernel), pieces_quote _ _ he,
      pieces_plain _ (by rw [List.mem_append]; exact fun h => h.elim (by decide +kernel) hq)]
  | none =>
    have e1 : "/ietf-netconf-server:netconf-server/listen/endpoints/endpoint[name='".toList =
      "/ietf-netconf-server:netconf-server/listen/endpoints/endpoint[name=".toList ++ ['\''] := by decide +kernel
    have e3 : "']/tls/tls-server-parameters".toList = '\'' :: "]/tls/tls-server-parameters".toList := by decide +kernel
    simp only [str, Option.getD_some, e1, e3, List.append_assoc, List.cons_append, List.nil_append]
    rw [pieces_quote _ _ (by decide +kernel), pieces_quote _ _ he,
      pieces_plain _ (by rw [List.mem_append]; exact fun h => h.elim (by decide +kernel) hq)]

theorem xpath_pieces (l : Loc) (h : ∀ n ∈ l.names, '\'' ∉ n) : pieces (xpath l.cp) = l.path := by
  have tl : "']/certificate-expiration/expiration-date".toList = '\'' :: "]/certificate-expiration/expiration-date".toList := by decide +kernel
  have tp : pieces "]/certificate-expiration/expiration-date".toList = ["]/certificate-expiration/expiration-date".toList] :=
    pieces_plain _ (by decide +kernel)
  cases l with
  | server ch e =>
    simp only [Loc.names, List.mem_append, Option.mem_toList, List.mem_singleton] at h
    simp only [Loc.cp, xpath, Loc.path]
    exact endpt_pieces_end _ ch e rfl rfl (fun c hc => h c (.inl hc)) (h e (.inr rfl)) _ (by decide +kernel)
  | ca ch e c =>
    simp only [Loc.names, List.mem_append, Option.mem_toList, List.mem_cons, List.not_mem_nil, or_false] at h
    have e1 : "/client-authentication/ca-certs/inline-definition/certificate[name='".toList =
      "/client-authentication/ca-certs/inline-definition/certificate[name=".toList ++ ['\''] := by decide +kernel
    simp only [Loc.cp, xpath, Loc.path, e1, tl, List.append_assoc, List.cons_append, List.nil_append]
    rw [endpt_pieces _ _ ch e rfl rfl (fun c hc => h c (.inl hc)) (h e (.inr (.inl rfl))) _ (by decide +kernel), pieces_quote _ _ (h c (.inr (.inr rfl))), tp]
  | ee ch e c =>
    simp only [Loc.names, List.mem_append, Option.mem_toList, List.mem_cons, List.not_mem_nil, or_false] at h
    have e1 : "/client-authentication/ee-certs/inline-definition/certificate[name='".toList =
      "/client-authentication/ee-certs/inline-definition/certificate[name=".toList ++ ['\''] := by decide +kernel
    simp only [Loc.cp, xpath, Loc.path, e1, tl, List.append_assoc, List.cons_append, List.nil_append]
    rw [endpt_pieces _ _ ch e rfl rfl (fun c hc => h c (.inl hc)) (h e (.inr (.inl rfl))) _ (by decide +kernel), pieces_quote _ _ (h c (.inr (.inr rfl))), tp]
  | key k c =>
    simp only [Loc.names, List.mem_cons, List.not_mem_nil, or_false] at h
    have e1 : "/ietf-keystore:keystore/asymmetric-keys/asymmetric-key[name='".toList =
      "/ietf-keystore:keystore/asymmetric-keys/asymmetric-key[name=".toList ++ ['\''] := by decide +kernel
    have e2 : "']/certificates/certificate[name='".toList = '\'' :: ("]/certificates/certificate[name=".toList ++ ['\'']) := by decide +kernel
    simp only [Loc.cp, xpath, Loc.path, str, Option.getD_some, e1, e2, tl, List.append_assoc, List.cons_append, List.nil_append]
    rw [pieces_quote _ _ (by decide +kernel), pieces_quote _ _ (h k (.inl rfl)), pieces_quote _ _ (by decide +kernel), pieces_quote _ _ (h c (.inr rfl)), tp]
  | bag k c =>
    simp only [Loc.names, List.mem_cons, List.not_mem_nil, or_false] at h
    have e1 : "/ietf-truststore:truststore/certificate-bags/certificate-bag[name='".toList =
      "/ietf-truststore:truststore/certificate-bags/certificate-bag[name=".toList ++ ['\''] := by decide +kernel
    have e2 : "']/certificate[name='".toList = '\'' :: ("]/certificate[name=".toList ++ ['\'']) := by decide +kernel
    simp only [Loc.cp, xpath, Loc.path, str, Option.getD_some, e1, e2, tl, List.append_assoc, List.cons_append, List.nil_append]
    rw [pieces_quote _ _ (by decide +kernel), pieces_quote _ _ (h k (.inl rfl)), pieces_quote _ _ (by decide +kernel), pieces_quote _ _ (h c (.inr rfl)), tp]

/-- Different places have different paths. -/
theorem loc_path_injective {a b : Loc} (h : a.path = b.path) : a = b := by
  have k1 : "/ietf-netconf-server:netconf-server/call-home/netconf-client[name=".toList ≠
    "/ietf-netconf-server:netconf-server/listen/endpoints/endpoint[name=".toList := by decide +kernel
  have k2 : "/ietf-netconf-server:netconf-server/call-home/netconf-client[name=".toList ≠
    "/ietf-keystore:keystore/asymmetric-keys/asymmetric-key[name=".toList := by decide +kernel
  have k3 : "/ietf-netconf-server:netconf-server/call-home/netconf-client[name=".toList ≠
    "/ietf-truststore:truststore/certificate-bags/certificate-bag[name=".toList := by decide +kernel
  have k4 : "/ietf-netconf-server:netconf-server/listen/endpoints/endpoint[name=".toList ≠
    "/ietf-keystore:keystore/asymmetric-keys/asymmetric-key[name=".toList := by decide +kernel
  have k5 : "/ietf-netconf-server:netconf-server/listen/endpoints/endpoint[name=".toList ≠
    "/ietf-truststore:truststore/certificate-bags/certificate-bag[name=".toList := by decide +kernel
  have k6 : "/ietf-keystore:keystore/asymmetric-keys/asymmetric-key[name=".toList ≠
    "/ietf-truststore:truststore/certificate-bags/certificate-bag[name=".toList := by decide +kernel
  have k7 : "]/tls/tls-server-parameters".toList ++ "/client-authentication/ca-certs/inline-definition/certificate[name=".toList ≠
    "]/tls/tls-server-parameters".toList ++ "/client-authentication/ee-certs/inline-definition/certificate[name=".toList := by decide +kernel
  cases a with
  | server ch e =>
    cases ch <;> cases b with
    | server ch' e' => cases ch' <;> simp only [Loc.path, endptPieces, List.cons.injEq, reduceCtorEq, and_false, k1, k1.symm] at h <;> simp_all only
    | ca ch' e' c' => cases ch' <;> simp only [Loc.path, endptPieces, List.cons_append, List.nil_append, List.cons.injEq, reduceCtorEq, and_false, false_and, k1, k1.symm] at h
    | ee ch' e' c' => cases ch' <;> simp only [Loc.path, endptPieces, List.cons_append, List.nil_append, List.cons.injEq, reduceCtorEq, and_false, false_and, k1, k1.symm] at h
    | key k c' => simp only [Loc.path, endptPieces, List.cons.injEq, reduceCtorEq, and_false, false_and, k2, k4] at h
    | bag k c' => simp only [Loc.path, endptPieces, List.cons.injEq, reduceCtorEq, and_false, false_and, k3, k5] at h
  | ca ch e c =>
    cases ch <;> cases b with
    | server ch' e' => cases ch' <;> simp only [Loc.path, endptPieces, List.cons_append, List.nil_append, List.cons.injEq, reduceCtorEq, and_false, false_and, k1, k1.symm] at h
    | ca ch' e' c' => cases ch' <;> simp only [Loc.path, endptPieces, List.cons_append, List.nil_append, List.cons.injEq, reduceCtorEq, and_false, k1, k1.symm] at h <;> simp_all only
    | ee ch' e' c' => cases ch' <;> simp only [Loc.path, endptPieces, List.cons_append, List.nil_append, List.cons.injEq, reduceCtorEq, and_false, false_and, k1, k1.symm, k7] at h
    | key k c' => simp only [Loc.path, endptPieces, List.cons_append, List.nil_append, List.cons.injEq, reduceCtorEq, and_false, false_and, k2, k4] at h
    | bag k c' => simp only [Loc.path, endptPieces, List.cons_append, List.nil_append, List.cons.injEq, reduceCtorEq, and_false, false_and, k3, k5] at h
  | ee ch e c =>
    cases ch <;> cases b with
    | server ch' e' => cases ch' <;> simp only [Loc.path, endptPieces, List.cons_append, List.nil_append, List.cons.injEq, reduceCtorEq, and_false, false_and, k1, k1.symm] at h
    | ca ch' e' c' => cases ch' <;> simp only [Loc.path, endptPieces, List.cons_append, List.nil_append, List.cons.injEq, reduceCtorEq, and_false, false_and, k1, k1.symm, k7.symm] at h
    | ee ch' e' c' => cases ch' <;> simp only [Loc.path, endptPieces, List.cons_append, List.nil_append, List.cons.injEq, reduceCtorEq, and_false, k1, k1.symm] at h <;> simp_all only
    | key k c' => simp only [Loc.path, endptPieces, List.cons_append, List.nil_append, List.cons.injEq, reduceCtorEq, and_false, false_and, k2, k4] at h
    | bag k c' => simp only [Loc.path, endptPieces, List.cons_append, List.nil_append, List.cons.injEq, reduceCtorEq, and_false, false_and, k3, k5] at h
  | key k c =>
    cases b with
    | server ch' e' => cases ch' <;> simp only [Loc.path, endptPieces, List.cons.injEq, reduceCtorEq, and_false, false_and, k2.symm, k4.symm] at h
    | ca ch' e' c' => cases ch' <;> simp only [Loc.path, endptPieces, List.cons_append, List.nil_append, List.cons.injEq, reduceCtorEq, and_false, false_and, k2.symm, k4.symm] at h
    | ee ch' e' c' => cases ch' <;> simp only [Loc.path, endptPieces, List.cons_append, List.nil_append, List.cons.injEq, reduceCtorEq, and_false, false_and, k2.symm, k4.symm] at h
    | key k c' => simp only [Loc.path, List.cons.injEq, and_true, true_and] at h; simp_all only
    | bag k c' => simp only [Loc.path, List.cons.injEq, false_and, k6] at h
  | bag k c =>
    cases b with
    | server ch' e' => cases ch' <;> simp only [Loc.path, endptPieces, List.cons.injEq, reduceCtorEq, and_false, false_and, k3.symm, k5.symm] at h
    | ca ch' e' c' => cases ch' <;> simp only [Loc.path, endptPieces, List.cons_append, List.nil_append, List.cons.injEq, reduceCtorEq, and_false, false_and, k3.symm, k5.symm] at h
    | ee ch' e' c' => cases ch' <;> simp only [Loc.path, endptPieces, List.cons_append, List.nil_append, List.cons.injEq, reduceCtorEq, and_false, false_and, k3.symm, k5.symm] at h
    | key k c' => simp only [Loc.path, List.cons.injEq, false_and, k6.symm] at h
    | bag k c' => simp only [Loc.path, List.cons.injEq, and_true, true_and] at h; simp_all only

end Verif.CertDates
