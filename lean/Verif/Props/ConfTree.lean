import Verif.Model.ConfTree

namespace Verif.Props

open Verif.ConfTree

/-! ## C30: inheritance of operations -/

/-- The operation a node states itself. -/
def explicit : Meta → Option Op
  | .create => some .create
  | .delete => some .delete
  | .replace => some .replace
  | .none => some .none
  | .absent => none
  | .other => none

/-- The operation in force, given the metadata of the node and its ancestors (nearest first): the nearest stated one. -/
def effective (path : List Meta) : Option Op := path.findSome? explicit

/-- The list and all its tails: the metadata paths of an element and all its ancestors. -/
def suffixes : List Meta → List (List Meta)
  | [] => [[]]
  | m :: l => (m :: l) :: suffixes l

mutual
/-- All nodes in document order with their metadata and that of their ancestors `anc`, nearest first. -/
def nodes (anc : List Meta) : Tree → List (Nat × List Meta)
  | .node label m children => (label, m :: anc) :: nodesList (m :: anc) children
/-- The same for a list of siblings. -/
def nodesList (anc : List Meta) : List Tree → List (Nat × List Meta)
  | [] => []
  | t :: ts => nodes anc t ++ nodesList anc ts
end

/-- A node is to be processed if its operation is create, delete or replace and none of its ancestors is deleted. -/
def due (n : Nat × List Meta) : Option (Nat × Op) :=
  if (suffixes n.2.tail).any (fun s => effective s == some .delete) then none
  else
    match effective n.2 with
    | some .create => some (n.1, .create)
    | some .delete => some (n.1, .delete)
    | some .replace => some (n.1, .replace)
    | _ => none

/-- Calling the callback for each in turn until one fails. -/
def execute (cb : Log → Nat → Op → Bool) (log : Log) : List (Nat × Op) → Bool × Log
  | [] => (true, log)
  | (l, o) :: r => if cb log l o then execute cb (log ++ [(l, o)]) r else (false, log ++ [(l, o)])

theorem execute_append (cb : Log → Nat → Op → Bool) (a b : List (Nat × Op)) : ∀ log, execute cb log (a ++ b) =
    match execute cb log a with
    | (false, l) => (false, l)
    | (true, l) => execute cb l b := by
  induction a with
  | nil => intro log; simp [execute]
  | cons x a ih =>
    intro log
    obtain ⟨l, o⟩ := x
    simp only [List.cons_append, execute]
    split
    · exact ih _
    · rfl

mutual
theorem below_deleted (anc : List Meta) (hd : (suffixes anc).any (fun s => effective s == some .delete) = true) : (t : Tree) → (nodes anc t).filterMap due = []
  | .node label m children => by
    rw [nodes, List.filterMap_cons]
    have h1 : due (label, m :: anc) = none := by
      unfold due
      rw [if_pos (by simpa using hd)]
    rw [h1]
    exact below_deleted_list (m :: anc) (by rw [suffixes, List.any_cons, hd, Bool.or_true]) children
theorem below_deleted_list (anc : List Meta) (hd : (suffixes anc).any (fun s => effective s == some .delete) = true) : (ts : List Tree) → (nodesList anc ts).filterMap due = []
  | [] => by simp [nodesList]
  | t :: ts => by
    rw [nodesList, List.filterMap_append, below_deleted anc hd t, below_deleted_list anc hd ts]
    rfl
end

theorem current_effective (m : Meta) (anc : List Meta) (p : Op) (h : (effective anc).getD .unknown = p) : (effective (m :: anc)).getD .unknown = current m p := by
  cases m <;> simp [effective, List.findSome?_cons, explicit, current, ownOp] <;> exact h

theorem current_effective_some (m : Meta) (anc : List Meta) (p : Op) (h : (effective anc).getD .unknown = p) (hc : current m p ≠ .unknown) :
    effective (m :: anc) = some (current m p) := by
  have := current_effective m anc p h
  cases he : effective (m :: anc) with
  | none => rw [he] at this; exact absurd this.symm hc
  | some o => rw [he] at this; simpa using this

mutual
theorem parseTree_spec (cb : Log → Nat → Op → Bool) (p : Op) (anc : List Meta) (hp : (effective anc).getD .unknown = p)
    (hn : (suffixes anc).any (fun s => effective s == some .delete) = false) : (t : Tree) → (log : Log) →
    (p = .unknown → ∃ l m c, t = .node l m c ∧ current m p ≠ .unknown) →
    parseTree cb p log t = execute cb log ((nodes anc t).filterMap due)
  | .node label m children, log, hu => by
    have hc : current m p ≠ .unknown := by
      by_cases h : p = .unknown
      · obtain ⟨l', m', c', ht, hc⟩ := hu h
        cases ht; exact hc
      · unfold current; split
        · exact h
        · assumption
    have he := current_effective_some m anc p hp hc
    rw [nodes, List.filterMap_cons]
    unfold parseTree
    simp only [hc, if_false]
    have hdue : due (label, m :: anc) = (match (some (current m p) : Option Op) with
        | some .create => some (label, .create) | some .delete => some (label, .delete) | some .replace => some (label, .replace) | _ => none) := by
      unfold due
      rw [if_neg (by simpa using hn)]
      simp only [he]
    have htail : current m p ≠ .delete → (suffixes (m :: anc)).any (fun s => effective s == some .delete) = false := by
      intro hd
      rw [suffixes, List.any_cons, hn, he]
      simpa using hd
    have hkids : current m p ≠ .delete → ∀ lg, parseList cb (current m p) lg children = execute cb lg ((nodesList (m :: anc) children).filterMap due) :=
      fun hd lg => parseList_spec cb (current m p) (m :: anc) (by rw [he]; rfl) (htail hd) hc children lg
    rw [hdue]
    cases hcur : current m p with
    | unknown => exact absurd hcur hc
    | none =>
      simp only [if_true]
      rw [hcur] at hkids
      exact hkids (by simp) log
    | create =>
      rw [hcur] at hkids
      simp only [execute, hkids (by simp), reduceCtorEq, if_false]
      cases cb log label .create <;> simp
    | replace =>
      rw [hcur] at hkids
      simp only [execute, hkids (by simp), reduceCtorEq, if_false]
      cases cb log label .replace <;> simp
    | delete =>
      have hb : (nodesList (m :: anc) children).filterMap due = [] := by
        apply below_deleted_list
        rw [suffixes, List.any_cons, he, hcur]
        simp
      simp only [execute, hb, reduceCtorEq, if_false, if_true]
      cases cb log label .delete <;> simp
theorem parseList_spec (cb : Log → Nat → Op → Bool) (p : Op) (anc : List Meta) (hp : (effective anc).getD .unknown = p)
    (hn : (suffixes anc).any (fun s => effective s == some .delete) = false) (hu : p ≠ .unknown) : (ts : List Tree) → (log : Log) →
    parseList cb p log ts = execute cb log ((nodesList anc ts).filterMap due)
  | [], log => by simp [parseList, nodesList, execute]
  | t :: ts, log => by
    rw [parseList, nodesList, List.filterMap_append, execute_append, parseTree_spec cb p anc hp hn t log (fun h => absurd h hu)]
    split
    · rename_i l h; rw [h]
    · rename_i l h; rw [h]; exact parseList_spec cb p anc hp hn hu ts l
end

/-- C30: for a diff whose root states an operation, the callback is called for exactly the nodes to be processed, in document order and with the
operation in force, up to and including the first failing call; the result is success if no call fails. A root without an operation is refused
without any call. -/
theorem operations_inherited (cb : Log → Nat → Op → Bool) (label : Nat) (m : Meta) (children : List Tree) :
    (explicit m ≠ none → parseTree cb .unknown [] (.node label m children) = execute cb [] ((nodes [] (.node label m children)).filterMap due)) ∧
    (explicit m = none → parseTree cb .unknown [] (.node label m children) = (false, [])) := by
  constructor
  · intro h
    refine parseTree_spec cb .unknown [] (by rfl) (by simp [effective, suffixes]) _ [] (fun _ => ⟨label, m, children, rfl, ?_⟩)
    cases m <;> simp_all [explicit, current, ownOp]
  · intro h
    cases m <;> simp_all [explicit, current, ownOp, parseTree]

/-- A diff with a created subtree, a deleted subtree whose descendants are skipped, and a changed leaf under an unchanged container. -/
example : parseTree (fun _ _ _ => true) .unknown []
      (.node 0 .none [.node 1 .create [.node 2 .absent [], .node 3 .none [.node 4 .absent []]], .node 5 .delete [.node 6 .create []], .node 7 .absent [.node 8 .replace []]]) =
    (true, [(1, .create), (2, .create), (5, .delete), (8, .replace)]) := by decide

/-- A failing call stops the application. -/
example : parseTree (fun _ l _ => l != 2) .unknown [] (.node 0 .none [.node 1 .create [.node 2 .absent [], .node 3 .absent []], .node 5 .delete []]) =
    (false, [(1, .create), (2, .create)]) := by decide

/-- Each node is processed at most once: with distinct labels the calls have distinct labels. -/
theorem operations_once (cb : Log → Nat → Op → Bool) (label : Nat) (m : Meta) (children : List Tree)
    (hd : ((nodes [] (.node label m children)).map (·.1)).Nodup) :
    ((parseTree cb .unknown [] (.node label m children)).2.map (·.1)).Nodup := by
  obtain ⟨h1, h2⟩ := operations_inherited cb label m children
  by_cases he : explicit m = none
  · rw [h2 he]; simp
  · rw [h1 he]
    have hsub : ∀ (l : List (Nat × Op)) (log : Log), (execute cb log l).2 <+: log ++ l := by
      intro l
      induction l with
      | nil => intro log; simp [execute]
      | cons x l ih =>
        intro log
        obtain ⟨a, o⟩ := x
        simp only [execute]
        split
        · simpa using ih (log ++ [(a, o)])
        · exact ⟨l, by simp⟩
    have h3 : ∀ l : List (Nat × List Meta), ((l.filterMap due).map (·.1)).Sublist (l.map (·.1)) := by
      intro l
      induction l with
      | nil => simp
      | cons x l ih =>
        rw [List.filterMap_cons]
        cases hx : due x with
        | none => exact ih.cons _
        | some y =>
          have : y.1 = x.1 := by
            unfold due at hx
            split at hx
            · cases hx
            · split at hx <;> first | cases hx; rfl | cases hx
          simp only [List.map_cons, this]
          exact ih.cons_cons _
    have h4 := (hsub ((nodes [] (.node label m children)).filterMap due) []).sublist.map (·.1)
    exact (hd.sublist (h3 _)).sublist (by simpa using h4)

example : ((parseTree (fun _ _ _ => true) .unknown [] (.node 0 .create [.node 1 .absent [], .node 2 .delete []])).2.map (·.1)) = [0, 1, 2] := by decide

end Verif.Props
