/-!
# Applying a configuration diff (src/server_config.c:4143-4213)
-/

namespace Verif.ConfTree

/-- NC_OPERATION (src/session_p.h:38-44). -/
inductive Op where
  | unknown
  | none
  | create
  | delete
  | replace
  deriving DecidableEq, Repr

/-- The value of the metadata `yang:operation` of a node, if any; `other` is any other text (src/server_config.c:4153-4164). -/
inductive Meta where
  | absent
  | create
  | delete
  | replace
  | none
  | other
  deriving DecidableEq, Repr

/-- A data tree (src/server_config.c:4143, `struct lyd_node` of libyang): label of the node, metadata, children. -/
inductive Tree where
  | node (label : Nat) (m : Meta) (children : List Tree)
  deriving Repr

/-- Operation of the node itself (src/server_config.c:4147, 4153-4164). -/
def ownOp : Meta → Op
  | .create => .create
  | .delete => .delete
  | .replace => .replace
  | .none => .none
  | .absent => .unknown
  | .other => .unknown

/-- The operation in force (src/server_config.c:4166-4174). -/
def current (m : Meta) (parent : Op) : Op := if ownOp m = .unknown then parent else ownOp m

/-- Calls of the module callback so far (src/server_config.c:4183-4199): label and operation. -/
abbrev Log := List (Nat × Op)

mutual
/-- `nc_server_config_parse_tree` (src/server_config.c:4143-4213); `cb` is the result of the module callback for a node (`true` is
success) as a function of the earlier calls, the node and the operation. The result is the success and the calls made. -/
def parseTree (cb : Log → Nat → Op → Bool) (parent : Op) (log : Log) : Tree → Bool × Log
  | .node label m children =>
    let op := current m parent
    if op = .unknown then (false, log)
    else if op = .none then parseList cb op log children
    else
      let log' := log ++ [(label, op)]
      if !cb log label op then (false, log')
      else if op = .delete then (true, log')
      else parseList cb op log' children
/-- The loop over the children (src/server_config.c:4206-4211). -/
def parseList (cb : Log → Nat → Op → Bool) (parent : Op) (log : Log) : List Tree → Bool × Log
  | [] => (true, log)
  | t :: ts =>
    match parseTree cb parent log t with
    | (false, l) => (false, l)
    | (true, l) => parseList cb parent l ts
end

end Verif.ConfTree
