import Verif.Model.ConfSetup
import Verif.Spec.ConfCh

/-!
# Specification: the configuration of the whole server

The application sets up complete data or diffs, in any number and order. What is configured afterwards is defined here without looking at what
the server does.
-/

namespace Verif.ConfSetup
open Verif.ConfTree (Op Meta)
open Verif.ConfStore
open Verif.ConfEndpt (ListenConf ListenData ListenDiff EndptConf ListenAs listenTree patchListen noLost)
open Verif.ConfCh (ChData ClientConf ClientEdit chConf chData chTree patchCh Client EpsAs OptAs)
open Verif.CertExp (Span Interval)

/-! ## Operations -/

/-- A node or one below it has the metadata `yang:operation`. -/
inductive Marked : Tree → Prop
  | here (l : Label) (v : Nat) (m : Meta) (ch : List Tree) (h : m ≠ .absent) : Marked (.node l v m ch)
  | under (l : Label) (v : Nat) (m : Meta) (ch : List Tree) (t : Tree) (ht : t ∈ ch) (h : Marked t) : Marked (.node l v m ch)

/-- The same for top-level nodes. -/
def Top.Marked : Top → Prop
  | .ks t => ConfSetup.Marked t
  | .ts t => ConfSetup.Marked t
  | .srv t => t.m ≠ .absent ∨ (∃ x, t.listen = some x ∧ ConfSetup.Marked x) ∨ ∃ x, t.ch = some x ∧ ConfSetup.Marked x
  | .ln2 t => t.m ≠ .absent ∨ ∃ m l, t.cont = some (m, l) ∧ (m ≠ .absent ∨ ∃ x ∈ l, x.m ≠ .absent)

/-! ## Intervals -/

/-- Units of time. -/
inductive Unit4 where
  | months
  | weeks
  | days
  | hours
  deriving DecidableEq, Repr

/-- A time: a number of a unit. -/
structure Period where
  n : Nat
  u : Unit4
  deriving DecidableEq, Repr

/-- The values of the type time-period (modules/libnetconf2-netconf-server@2024-07-09.yang:247-250). -/
def Period.valid (p : Period) : Bool :=
  match p.u with
  | .months => 1 ≤ p.n && p.n ≤ 12
  | .weeks => 1 ≤ p.n && p.n ≤ 4
  | .days => 1 ≤ p.n && p.n ≤ 7
  | .hours => 1 ≤ p.n && p.n ≤ 24

/-- The letter of a unit. -/
def Unit4.char : Unit4 → Char
  | .months => 'm'
  | .weeks => 'w'
  | .days => 'd'
  | .hours => 'h'

/-- A digit. -/
def digitChar (n : Nat) : Char := Char.ofNat (48 + n)

/-- The text of a time. -/
def Period.text (p : Period) : List Char :=
  if p.n < 10 then [digitChar p.n, p.u.char] else [digitChar (p.n / 10), digitChar (p.n % 10), p.u.char]

/-- Its meaning. -/
def Period.span (p : Period) : Span :=
  match p.u with
  | .months => { months := p.n }
  | .weeks => { weeks := p.n }
  | .days => { days := p.n }
  | .hours => { hours := p.n }

/-- Anchor and period of an interval. -/
abbrev Iv := Period × Period

/-- Its meaning. -/
def ivOf (x : Iv) : Interval := ⟨x.1.span, x.2.span⟩

/-- Valid anchor and period. -/
def ivValid (x : Iv) : Bool := x.1.valid && x.2.valid

/-- An interval as data. -/
def ivNode (m : Meta) (x : Iv) : IvNode := ⟨m, x.1.text, x.2.text⟩

/-- Edits of intervals. -/
inductive IvEdit where
  | create (x : Iv)
  | delete (x : Iv)

/-- Apply one. -/
def IvEdit.apply (l : List Iv) : IvEdit → Option (List Iv)
  | .create x => if ivValid x = true ∧ x ∉ l then some (l ++ [x]) else none
  | .delete x => if x ∈ l then some (l.erase x) else none

/-- Apply several. -/
def applyIvs : List Iv → List IvEdit → Option (List Iv)
  | l, [] => some l
  | l, e :: es => (e.apply l).bind (fun l' => applyIvs l' es)

/-- An edit as data. -/
def IvEdit.node : IvEdit → IvNode
  | .create x => ivNode .create x
  | .delete x => ivNode .delete x

/-- Diffs: edits, removal of the container with the intervals, removal of the container above it. -/
inductive LnDiff where
  | edit (es : List IvEdit)
  | clearIvs (rest : List IvNode)
  | clear (rest : Option (Meta × List IvNode))

/-- Apply a diff. -/
def LnDiff.apply (l : List Iv) : LnDiff → Option (List Iv)
  | .edit es => applyIvs l es
  | .clearIvs _ => some []
  | .clear _ => some []

/-- A diff as data. -/
def LnDiff.tree : LnDiff → Ln2
  | .edit es => ⟨.none, some (.none, es.map IvEdit.node)⟩
  | .clearIvs rest => ⟨.none, some (.delete, rest)⟩
  | .clear rest => ⟨.delete, rest⟩

/-! ## The whole configuration -/

/-- Configuration of the server. -/
structure Conf where
  ks : Map KeyConf
  ts : TsConf
  listen : Option ListenConf
  ch : Option (Map ClientConf)
  ivs : List Iv

/-- Nothing is configured. -/
def Conf.empty : Conf := ⟨fun _ => none, TsConf.empty, none, none, []⟩

/-- Complete data; the stores are given first or last. -/
structure Data where
  ks : Option (List (Nat × KeyData))
  ts : Option TsData
  listen : Option ListenData
  ch : Option ChData
  ivs : Option (List Iv)
  storesLast : Bool

/-- What is there and its meaning. -/
def partConf {α β : Type} (none' : β) (f : α → Option β) : Option α → Option β
  | none => some none'
  | some x => f x

/-- Their meaning, if they are valid. -/
def Data.conf (d : Data) : Option Conf :=
  match partConf (fun _ => none) ksDataConf d.ks, partConf TsConf.empty TsData.conf d.ts,
    partConf none (fun x => (ListenData.conf x).map some) d.listen, partConf none (fun x => (chConf x).map some) d.ch,
    partConf [] (fun l => applyIvs [] (l.map IvEdit.create)) d.ivs with
  | some a, some b, some c, some e, some f => some ⟨a, b, c, e, f⟩
  | _, _, _, _, _ => none

/-- Keystore and truststore of complete data. -/
def Data.stores (d : Data) : List Top :=
  (d.ks.map (fun l => Top.ks (ksDataTree l))).toList ++ (d.ts.map (fun t => Top.ts t.tree)).toList

/-- The other modules of complete data. -/
def Data.server (d : Data) : List Top :=
  Top.srv ⟨.absent, d.listen.map ListenData.tree, d.ch.map chData⟩ ::
    (d.ivs.map (fun l => Top.ln2 ⟨.absent, some (.absent, l.map (ivNode .absent))⟩)).toList

/-- Complete data as data trees without operations. -/
def Data.tops (d : Data) : List Top := if d.storesLast then d.server ++ d.stores else d.stores ++ d.server

/-- The tree with other metadata. -/
def withMeta (m : Meta) : Tree → Tree
  | .node l v _ ch => .node l v m ch

/-- Diffs of the containers `listen` and `call-home`, which may be created and removed. -/
inductive PartDiff (δ α : Type) where
  | keep
  | create (x : α)
  | edit (d : δ)
  | delete (rest : List Tree)

/-- Apply one. -/
def PartDiff.apply {δ α β : Type} (mk : α → Option β) (change : β → δ → Option β) : PartDiff δ α → Option β → Option (Option β)
  | .keep, o => some o
  | .create x, none => (mk x).map some
  | .create _, some _ => none
  | .edit d, some c => (change c d).map some
  | .edit _, none => none
  | .delete _, some _ => some none
  | .delete _, none => none

/-- One as data. -/
def PartDiff.tree {δ α : Type} (dt : α → Tree) (et : δ → Tree) : PartDiff δ α → Option Tree
  | .keep => none
  | .create x => some (withMeta .create (dt x))
  | .edit d => some (et d)
  | .delete rest => some (.node .other 0 .delete rest)

/-- Diffs of the container `netconf-server`: changes in it, its creation and its removal. -/
inductive SrvDiff where
  | edit (l : PartDiff ListenDiff ListenData) (c : PartDiff (List ClientEdit) ChData)
  | create (l : Option ListenData) (c : Option ChData)
  | clear (l c : Option Tree)

/-- A diff of Call Home applied. -/
def chStep (m : Map ClientConf) (es : List ClientEdit) : Option (Map ClientConf) := patchCh .all m [es]

/-- Apply a diff. -/
def SrvDiff.apply (c : Conf) : SrvDiff → Option Conf
  | .edit l h =>
    match l.apply ListenData.conf patchListen c.listen, h.apply chConf chStep c.ch with
    | some a, some b => some { c with listen := a, ch := b }
    | _, _ => none
  | .create l h =>
    if c.listen.isNone && c.ch.isNone then
      match partConf none (fun x => (ListenData.conf x).map some) l, partConf none (fun x => (chConf x).map some) h with
      | some a, some b => some { c with listen := a, ch := b }
      | _, _ => none
    else none
  | .clear _ _ => some { c with listen := none, ch := none }

/-- A diff as data. -/
def SrvDiff.tree : SrvDiff → SrvTree
  | .edit l h => ⟨.none, l.tree ListenData.tree listenTree, h.tree chData chTree⟩
  | .create l h => ⟨.create, l.map ListenData.tree, h.map chData⟩
  | .clear l h => ⟨.delete, l, h⟩

/-- Diffs of the whole configuration. -/
structure Diff where
  ks : Option KsDiff
  ts : Option TsDiff
  srv : Option SrvDiff
  ln2 : Option LnDiff

/-- Apply a diff, if it is there. -/
def optApply {α β : Type} (f : β → α → Option β) (c : β) : Option α → Option β
  | none => some c
  | some d => f c d

/-- Apply a diff. -/
def Diff.apply (c : Conf) (d : Diff) : Option Conf :=
  match optApply patchKs c.ks d.ks, optApply patchTs c.ts d.ts, optApply SrvDiff.apply c d.srv, optApply LnDiff.apply c.ivs d.ln2 with
  | some a, some b, some e, some f => some ⟨a, b, e.listen, e.ch, f⟩
  | _, _, _, _ => none

/-- A diff as data trees. -/
def Diff.tops (d : Diff) : List Top :=
  (d.ks.map (fun x => Top.ks (ksTree x))).toList ++ ((d.ts.map (fun x => Top.ts (tsTree x))).toList ++
    ((d.srv.map (fun x => Top.srv x.tree)).toList ++ (d.ln2.map (fun x => Top.ln2 x.tree)).toList))

/-- What the application sets up. -/
inductive Step where
  | data (d : Data)
  | diff (d : Diff)

/-- What is configured afterwards, if data are valid and diffs fit: data replace everything. -/
def Step.apply (c : Conf) : Step → Option Conf
  | .data d => d.conf
  | .diff d => d.apply c

/-- After several steps. -/
def applyAll : Conf → List Step → Option Conf
  | c, [] => some c
  | c, x :: xs => (x.apply c).bind (fun c' => applyAll c' xs)

/-- The calls of the application. -/
def Step.call : Step → Call
  | .data d => .data d.tops
  | .diff d => .diff d.tops

/-! ## What the server does -/

/-- The endpoints configured. -/
def Conf.endpts (c : Conf) : Map EndptConf := (c.listen.map ListenConf.endpts).getD (fun _ => none)

/-- The Call Home clients configured. -/
def Conf.clients (c : Conf) : Map ClientConf := c.ch.getD (fun _ => none)

/-- The server works as configured: keystore and truststore, where it listens, after which time sessions are dropped, which clients it calls
and when, when it tells that certificates expire. -/
def As (s : Server) (c : Conf) : Prop :=
  HoldsKs s.ks c.ks ∧ HoldsTs s.ts c.ts ∧ ListenAs s.listen c.endpts ∧ (∀ l, c.listen = some l → s.listen.idle = l.idle.getD 180) ∧
  Holds Client.name (fun a x => EpsAs a x ∧ OptAs a x) s.ch c.clients ∧ s.ivs.Perm (c.ivs.map ivOf)

/-! ## Steps that are followed -/

/-- Diffs of `listen` that are followed (see `ConfEndpt`). -/
def listenOk : PartDiff ListenDiff ListenData → Prop
  | .edit d => noLost d
  | _ => True

/-- Diffs of `call-home` that are followed (see `ConfCh`); if the application has not given its callbacks, clients must not be removed. -/
def chOk (disp : Bool) (o : Option (Map ClientConf)) : PartDiff (List ClientEdit) ChData → Prop
  | .edit es => (∀ m, o = some m → (patchCh .contact m [es]).isSome = true) ∧ (disp = true ∨ ∀ k r, Edit.delete k r ∉ es)
  | .delete _ => disp = true
  | _ => True

/-- Diffs of `netconf-server` that are followed: not its removal. -/
def SrvDiff.ok (disp : Bool) (c : Conf) : SrvDiff → Prop
  | .edit l h => listenOk l ∧ chOk disp c.ch h
  | .create _ _ => True
  | .clear _ _ => c.listen = none ∧ c.ch = none

/-- Diffs of the intervals that are followed: not the removal of their container. -/
def LnDiff.ok (l : List Iv) : LnDiff → Prop
  | .clearIvs _ => l = []
  | _ => True

/-- Steps that are followed: complete data only if no intervals are configured before, and, if the application has not given its callbacks,
no clients. -/
def Step.ok (disp : Bool) (c : Conf) : Step → Prop
  | .data _ => c.ivs = [] ∧ (disp = true ∨ c.ch = none)
  | .diff d => (∀ x, d.ks = some x → x.noPubDelete) ∧ (∀ x, d.srv = some x → x.ok disp c) ∧ (∀ x, d.ln2 = some x → x.ok c.ivs)

/-- All steps are followed. -/
def okAll (disp : Bool) : Conf → List Step → Prop
  | _, [] => True
  | c, x :: xs => x.ok disp c ∧ ∀ c', x.apply c = some c' → okAll disp c' xs

end Verif.ConfSetup
