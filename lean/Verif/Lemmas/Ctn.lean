import Verif.Model.Ctn

namespace Verif.Ctn

/-- Strictly increasing ids. -/
def Sorted (l : List Ctn) : Prop := l.Pairwise (fun a b => a.id < b.id)

theorem find_erase (l : List Ctn) (hs : Sorted l) (id i : Nat) (h : get l id = some i) (j : Nat) :
    (l.eraseIdx i).find? (fun c => c.id == j) = if j = id then none else l.find? (fun c => c.id == j) := by
  induction l generalizing i with
  | nil => simp [get] at h
  | cons x l ih =>
    simp only [Sorted, List.pairwise_cons] at hs
    unfold get at h
    rw [List.findIdx?_cons] at h
    by_cases hx : x.id = id
    · simp only [hx, beq_self_eq_true, if_true, Option.some.injEq] at h
      subst h
      simp only [List.eraseIdx_cons_zero, List.find?_cons]
      by_cases hj : j = id
      · simp only [hj, if_true]
        rw [List.find?_eq_none]
        intro y hy
        have := hs.1 y hy
        simp only [beq_iff_eq]; omega
      · simp only [hj, if_false]
        have : (x.id == j) = false := by simp; omega
        simp [this]
    · have hx' : (x.id == id) = false := by simpa using hx
      simp only [hx', Bool.false_eq_true, if_false, Option.map_eq_some_iff] at h
      obtain ⟨k, hk, rfl⟩ := h
      simp only [List.eraseIdx_cons_succ, List.find?_cons]
      rw [ih hs.2 k hk]
      by_cases hj : j = id
      · have : (x.id == j) = false := by simp; omega
        simp [hj]
        rw [← hj, this]
      · cases (x.id == j) <;> simp [hj]

theorem sorted_erase {l : List Ctn} (hs : Sorted l) (i : Nat) : Sorted (l.eraseIdx i) :=
  List.Pairwise.sublist (List.eraseIdx_sublist l i) hs

theorem find_modify (l : List Ctn) (id i : Nat) (fp : Option Nat) (h : get l id = some i) (j : Nat) :
    (l.modify i (fun c => { c with fingerprint := fp })).find? (fun c => c.id == j) =
      (l.find? (fun c => c.id == j)).map (fun c => if j = id then { c with fingerprint := fp } else c) := by
  induction l generalizing i with
  | nil => simp [get] at h
  | cons x l ih =>
    unfold get at h
    rw [List.findIdx?_cons] at h
    by_cases hx : x.id = id
    · simp only [hx, beq_self_eq_true, if_true, Option.some.injEq] at h
      subst h
      simp only [List.modify_zero_cons, List.find?_cons]
      by_cases hj : j = id
      · simp [hj, hx]
      · have : (x.id == j) = false := by simp; omega
        simp [this, hj]
    · have hx' : (x.id == id) = false := by simpa using hx
      simp only [hx', Bool.false_eq_true, if_false, Option.map_eq_some_iff] at h
      obtain ⟨k, hk, rfl⟩ := h
      simp only [List.modify_succ_cons, List.find?_cons]
      rw [ih k hk]
      by_cases hj : x.id = j
      · have : j ≠ id := by omega
        simp [hj, this]
      · have : (x.id == j) = false := by simpa using hj
        simp [this]

theorem sorted_map_id {l l' : List Ctn} (h : l.map (·.id) = l'.map (·.id)) (hs : Sorted l) : Sorted l' := by
  have h1 : (l.map (·.id)).Pairwise (· < ·) := List.pairwise_map.mpr hs
  rw [h] at h1
  exact List.pairwise_map.mp h1

theorem modify_map_id (l : List Ctn) (i : Nat) (fp : Option Nat) : (l.modify i (fun c => { c with fingerprint := fp })).map (·.id) = l.map (·.id) := by
  induction l generalizing i with
  | nil => simp
  | cons x l ih => cases i <;> simp [ih]

/-- What a created entry looks like: an existing entry keeps its fingerprint. -/
def made (l : List Ctn) (id : Nat) (name : Option Nat) (mt : Nat) : Ctn :=
  match l.find? (fun c => c.id == id) with
  | none => ⟨id, none, mt, name⟩
  | some c => ⟨id, c.fingerprint, mt, name⟩

theorem find_none_of_lt {l : List Ctn} {id : Nat} (h : ∀ c ∈ l, id < c.id) : l.find? (fun c => c.id == id) = none := by
  rw [List.find?_eq_none]
  intro y hy
  have := h y hy
  simp only [beq_iff_eq]; omega

theorem place_spec (id : Nat) (name : Option Nat) (mt : Nat) : ∀ (l : List Ctn), Sorted l → (∀ h ∈ l.head?, h.id ≤ id) →
    Sorted (place id name mt l) ∧ (place id name mt l).head?.map (·.id) = some ((l.head?.map (·.id)).getD id) ∧
    ∀ j, (place id name mt l).find? (fun c => c.id == j) = if j = id then some (made l id name mt) else l.find? (fun c => c.id == j) := by
  intro l
  induction l with
  | nil =>
    intro _ _
    refine ⟨by simp [place, Sorted], by simp [place], fun j => ?_⟩
    by_cases hj : j = id
    · simp [place, made, hj]
    · have : (id == j) = false := by simp; omega
      simp [place, hj, this]
  | cons h t ih =>
    intro hs hh
    have hh' : h.id ≤ id := hh h (by simp)
    have hs' := hs
    simp only [Sorted, List.pairwise_cons] at hs
    cases t with
    | nil =>
      by_cases he : h.id = id
      · refine ⟨by simp [place, he, Sorted], by simp [place, he], fun j => ?_⟩
        by_cases hj : j = id
        · simp [place, made, hj, he]
        · have : (id == j) = false := by simp; omega
          simp [place, hj, he, this]
      · refine ⟨?_, by simp [place, he], fun j => ?_⟩
        · simp [place, he, Sorted]; omega
        · by_cases hj : j = id
          · have : (h.id == id) = false := by simpa using he
            simp [place, made, hj, he, this]
          · have : (id == j) = false := by simp; omega
            simp [place, hj, he, List.find?_cons, this]
    | cons n t =>
      by_cases hn : n.id ≤ id
      · obtain ⟨i1, i2, i3⟩ := ih hs.2 (by intro x hx; simp at hx; subst hx; exact hn)
        have hlt := hs.1 n (by simp)
        have hp : place id name mt (h :: n :: t) = h :: place id name mt (n :: t) := by simp [place, hn]
        have hid : h.id ≠ id := by omega
        rw [hp]
        refine ⟨?_, by simp, fun j => ?_⟩
        · simp only [Sorted, List.pairwise_cons]
          refine ⟨?_, i1⟩
          cases hq : place id name mt (n :: t) with
          | nil => simp
          | cons q r =>
            rw [hq] at i2 i1
            simp at i2
            simp only [Sorted, List.pairwise_cons] at i1
            intro a ha
            rcases List.mem_cons.mp ha with ha' | ha'
            · rw [ha', i2]; exact hlt
            · have := i1.1 a ha'; omega
        · rw [List.find?_cons, i3]
          have hm : made (h :: n :: t) id name mt = made (n :: t) id name mt := by
            have : (h.id == id) = false := by simpa using hid
            simp only [made]
            rw [List.find?_cons, this]
          by_cases hj : j = id
          · have : (h.id == j) = false := by simp; omega
            simp [hj, hm]
            rw [← hj, this]
          · rw [if_neg hj, if_neg hj]
            simp only [List.find?_cons]
      · have htl : ∀ c ∈ n :: t, id < c.id := by
          intro c hc
          rcases List.mem_cons.mp hc with hc' | hc'
          · subst hc'; omega
          · have := (List.pairwise_cons.mp hs.2).1 c hc'; omega
        by_cases he : h.id = id
        · have hp : place id name mt (h :: n :: t) = { h with name := name, mapType := mt } :: n :: t := by simp [place, hn, he]
          rw [hp]
          refine ⟨?_, by simp, fun j => ?_⟩
          · exact List.pairwise_cons.mpr ⟨fun a ha => hs.1 a ha, hs.2⟩
          · by_cases hj : j = id
            · simp [made, hj, he]
            · have : (h.id == j) = false := by simp; omega
              rw [List.find?_cons, List.find?_cons (a := h)]
              simp [hj, this]
        · have hp : place id name mt (h :: n :: t) = h :: ⟨id, none, mt, name⟩ :: n :: t := by simp [place, hn, he]
          rw [hp]
          refine ⟨?_, by simp, fun j => ?_⟩
          · refine List.pairwise_cons.mpr ⟨?_, List.pairwise_cons.mpr ⟨fun a ha => htl a ha, hs.2⟩⟩
            intro a ha
            rcases List.mem_cons.mp ha with ha' | ha'
            · subst ha'; show h.id < id; omega
            · exact hs.1 a ha'
          · by_cases hj : j = id
            · have h1 : (h.id == id) = false := by simpa using he
              have h2 := find_none_of_lt htl
              rw [hj, if_pos rfl, made]
              rw [List.find?_cons, h1, List.find?_cons (a := h), h1]
              simp only [h2]
              simp
            · have : (id == j) = false := by simp; omega
              rw [if_neg hj]
              simp only [List.find?_cons, this]

theorem create_spec (l : List Ctn) (hs : Sorted l) (id : Nat) (name : Option Nat) (mt : Nat) :
    Sorted (create l id name mt) ∧
    ∀ j, (create l id name mt).find? (fun c => c.id == j) = if j = id then some (made l id name mt) else l.find? (fun c => c.id == j) := by
  cases l with
  | nil =>
    obtain ⟨a, _, b⟩ := place_spec id name mt [] hs (by simp)
    exact ⟨a, b⟩
  | cons h t =>
    by_cases hg : h.id > id
    · have htl : ∀ c ∈ h :: t, id < c.id := by
        intro c hc
        rcases List.mem_cons.mp hc with hc' | hc'
        · subst hc'; exact hg
        · have := (List.pairwise_cons.mp hs).1 c hc'; omega
      have hp : create (h :: t) id name mt = ⟨id, none, mt, name⟩ :: h :: t := by simp [create, hg]
      rw [hp]
      refine ⟨List.pairwise_cons.mpr ⟨fun a ha => htl a ha, hs⟩, fun j => ?_⟩
      by_cases hj : j = id
      · have h2 := find_none_of_lt htl
        rw [hj, if_pos rfl, made, h2]
        simp
      · have : (id == j) = false := by simp; omega
        rw [if_neg hj, List.find?_cons]
        simp [this]
    · have hp : create (h :: t) id name mt = place id name mt (h :: t) := by simp [create, hg]
      rw [hp]
      obtain ⟨a, _, b⟩ := place_spec id name mt (h :: t) hs (by intro x hx; simp at hx; subst hx; omega)
      exact ⟨a, b⟩

end Verif.Ctn
