import Verif.Model.RpcCb

/-!
# Which callback is expected to deal with a request
-/

namespace Verif.RpcCb

/-- The global callback set last. -/
def globOf : List Event → Option Nat
  | [] => none
  | .global g :: _ => g
  | _ :: h => globOf h

/-- The callback set last for the operation in the context since the context was made. -/
def ownOf (c : Nat) (op : Op) : List Event → Option Nat
  | [] => none
  | .own d o f :: h => if d = c ∧ o = op then f else ownOf c op h
  | .fresh d _ _ :: h => if d = c then none else ownOf c op h
  | _ :: h => ownOf c op h

/-- The context has the operation. -/
def hasOp (c : Nat) (op : Op) : List Event → Bool
  | [] => false
  | .fresh d m n :: h =>
    if d = c then
      match op with
      | .getSchema => m
      | .closeSession => n
      | .other _ => true
    else hasOp c op h
  | _ :: h => hasOp c op h

/-- A session was accepted in the context since the context was made. -/
def used (c : Nat) : List Event → Bool
  | [] => false
  | .session d :: h => if d = c then true else used c h
  | .fresh d _ _ :: h => if d = c then false else used c h
  | _ :: h => used c h

/-- The default callback of an operation. -/
def dflt : Op → Option Cb
  | .getSchema => some .getSchema
  | .closeSession => some .closeSession
  | .other _ => none

/-- The callback that is expected, of the events from the last one to the first one: that of the operation, the global one, the default one. -/
def expected (h : List Event) (c : Nat) (op : Op) : Option Cb :=
  match ownOf c op h, globOf h with
  | some f, _ => some (.app f)
  | none, some g => some (.app g)
  | none, none => dflt op

/-- While there are sessions in the context, the global callback is not changed and no callback of the operation is taken away. -/
def Settled (c : Nat) (op : Op) : List Event → Prop
  | [] => True
  | .global _ :: h => used c h = false ∧ Settled c op h
  | .own d o f :: h => (d = c → o = op → f = none → used c h = false) ∧ Settled c op h
  | .fresh d _ _ :: h => if d = c then True else Settled c op h
  | .session _ :: h => Settled c op h

end Verif.RpcCb
