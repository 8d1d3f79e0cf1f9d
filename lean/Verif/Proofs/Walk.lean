import Lean

/-!
# A tactic that walks through instruction bodies

Goals of the form `P .. x`, where the last argument `x` is CPU code, are reduced by the lemma
of the given namespace named after the head function of `x` (`bind`, `pure`, `getC`, ..); for
a sequence starting with `f`, a lemma `bind_f` is tried first. When the namespace is also the name
of a predicate, goals about other predicates are left alone. The tactic only chooses which lemma to
apply; the kernel checks the result.
-/

namespace Z80.Walk
open Lean Meta Elab Tactic

/-- The code a goal is about: its last argument. -/
def codeOf (t : Expr) : Expr := t.appArg!.consumeMData

/-- One step; `none` when no step applies. -/
def step (ns : Name) (g : MVarId) : MetaM (Option (List MVarId)) := g.withContext do
  let t := (← instantiateMVars (← g.getType)).consumeMData.headBeta
  if t.isForall || t.isLet then
    let (_, g) ← g.intro1
    return some [g]
  unless t.isApp do return none
  if (← getEnv).contains ns && !t.getAppFn.isConstOf ns then return none
  let x := codeOf t
  let ty := (← whnfR (← inferType x)).getAppFn
  unless ty.isConstOf `Z80.Ex || ty.isConstOf `Z80.Prog do return none
  if x.isLet then
    let b := x.letBody!.instantiate1 x.letValue!
    return some [← g.replaceTargetDefEq (.app t.appFn! b)]
  if x.isHeadBetaTarget then
    return some [← g.replaceTargetDefEq (.app t.appFn! x.headBeta)]
  let .const h _ := x.getAppFn | return none
  if h == ``Bind.bind then
    if let .const h' _ := (x.getArg! 4).consumeMData.getAppFn then
      let nm := ns ++ Name.mkSimple ("bind_" ++ h'.getString!)
      if (← getEnv).contains nm then
        try
          return some (← withReducible <| g.apply (← mkConstWithFreshMVarLevels nm))
        catch _ => pure ()
  let nm := ns ++ Name.mkSimple h.getString!
  if (← getEnv).contains nm then
    try
      return some (← withReducible <| g.apply (← mkConstWithFreshMVarLevels nm))
    catch _ => pure ()
  if (← isMatcher h) || h == ``ite || h == ``dite then
    match ← reduceMatcher? x with
    | .reduced x' => return some [← g.replaceTargetDefEq (.app t.appFn! x'.headBeta)]
    | _ => return ← splitTarget? g
  match ← delta? x (· == h) with
  | some x' => return some [← g.replaceTargetDefEq (.app t.appFn! x'.headBeta)]
  | none => return none

/-- At most `n` steps on every branch. -/
def steps (ns : Name) : Nat → MVarId → MetaM (List MVarId)
  | 0, g => return [g]
  | n + 1, g => do
    if ← g.isAssigned then return []
    if ← (try withReducible g.assumption; pure true catch _ => pure false) then return []
    match ← step ns g with
    | none => return [g]
    | some gs => return (← gs.mapM (steps ns n)).flatten

/-- Walk through the body with the lemmas of a namespace. -/
elab "walk " ns:ident : tactic => do
  let g ← getMainGoal
  let gs ← steps ns.getId 400 g
  replaceMainGoal gs

end Z80.Walk
