import Verif.Mem.Ops

/-!
# Tactics for `Gives`

They only apply the rules of `Verif/Mem/Logic.lean`, and keep what is known about the heap up to date.
-/

namespace Idemix.Mem

open Lean Elab Tactic Meta

/-- `carry e`, where `e : Ext r h h'`: every hypothesis about `h` that has a rule `mono` becomes one about `h'`. -/
elab "carry " e:term : tactic => withMainContext do
  let ty ← instantiateMVars (← inferType (← elabTerm e none))
  let #[_, _, h, _] := ty.getAppArgs | throwError "not a heap that has grown"
  let names ← (← getLCtx).foldlM (init := #[]) fun acc d => do
    if d.isImplementationDetail || d.userName.hasMacroScopes then return acc
    let ty ← instantiateMVars d.type
    let .const c _ := ty.getAppFn | return acc
    unless ((← getLCtx).findFromUserName? d.userName).any (·.fvarId == d.fvarId) do return acc
    unless ty.containsFVar h.fvarId! do return acc
    if (← getEnv).contains (c ++ `mono) then return acc.push d.userName else return acc
  for n in names do
    let id := mkIdent n
    try evalTactic (← `(tactic| replace $id := ($id).mono $e)) catch _ => pure ()

/-- Of a new object, keep what it contains. -/
elab "at_of " n:ident : tactic => withMainContext do
  let ty ← instantiateMVars (← inferType (← elabTerm n none))
  if ty.isAppOf ``New then evalTactic (← `(tactic| replace $n := And.left $n))

set_option hygiene false in
/-- A step that succeeds and returns a pointer to a new object, or something that denotes a value. -/
macro "run " t:term " with " p:ident n:ident : tactic =>
  `(tactic| (refine Gives.seq f $t fun $p h' f' $n => ?_; at_of $n; carry f'.ext; replace f := f'.self; clear f'))

set_option hygiene false in
/-- A step that may fail. -/
macro "try_run " t:term " with " p:ident v:ident n:ident : tactic =>
  `(tactic| (refine Gives.bind f $t fun $p $v h' _ f' $n => ?_; at_of $n; carry f'.ext; replace f := f'.self; clear f'))

set_option hygiene false in
/-- A step that may fail and does not use the heap. -/
macro "pure_run " p:ident : tactic =>
  `(tactic| (refine Gives.bind f Gives.lift fun $p _ h' _ f' e' => ?_; subst e'; carry f'.ext; replace f := f'.self;
             clear f'))

set_option hygiene false in
/-- A step that reads. -/
macro "get " t:term : tactic =>
  `(tactic| (refine Gives.seq f $t fun _ h' f' e' => ?_; cases e'; carry f'.ext; replace f := f'.self; clear f'))

end Idemix.Mem
