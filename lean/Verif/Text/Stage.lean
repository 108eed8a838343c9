import Lean.Elab.Command
import Lean.Meta.Eval
import Verif.Text.Front

/-!
Commands to compute something once and keep the value. The value is found by running compiled code, which is not trusted: the kernel
checks, by evaluating, the theorem that the value is right.
-/

namespace Verif.Text
open Lean Elab Command Meta

deriving instance ToExpr for Tok
deriving instance ToExpr for RTy
deriving instance ToExpr for RMode
deriving instance ToExpr for RFn
deriving instance ToExpr for Item
deriving instance ToExpr for MacroDef
deriving instance ToExpr for Sig
deriving instance ToExpr for Env

/-- `stageSome n : t := e`, where `e : Option t`, defines `n` as the value in `e` and proves `n_eq : e = some n`. -/
elab "stageSome " n:ident " : " t:term " := " e:term : command => do
  let ns ← getCurrNamespace
  let name := ns ++ n.getId
  liftTermElabM do
    let ty ← Term.elabType t
    let oty ← mkAppM ``Option #[ty]
    let v ← Term.elabTermEnsuringType e oty
    Term.synthesizeSyntheticMVarsNoPostponing
    let ty ← instantiateMVars ty
    let v ← instantiateMVars v
    let q ← mkAppM ``toExpr #[v]
    let val ← unsafe evalExpr Expr (mkConst ``Expr) q
    if val.getAppNumArgs != 2 then throwError "failed"
    addAndCompile (.defnDecl { name, levelParams := [], type := ty, value := val.appArg!, hints := .abbrev, safety := .safe })
    let u ← getLevel oty
    let some' ← mkAppM ``Option.some #[mkConst name]
    let prop ← mkEq v some'
    let proof := mkApp2 (mkConst ``Eq.refl [u]) oty some'
    addDecl (.thmDecl { name := name.appendAfter "_eq", levelParams := [], type := prop, value := proof })

/-- `stage n : t := e` defines `n : t` as the value of `e` and proves `n_eq : e = n`. -/
elab "stage " n:ident " : " t:term " := " e:term : command => do
  let ns ← getCurrNamespace
  let name := ns ++ n.getId
  liftTermElabM do
    let ty ← Term.elabType t
    let v ← Term.elabTermEnsuringType e ty
    Term.synthesizeSyntheticMVarsNoPostponing
    let ty ← instantiateMVars ty
    let v ← instantiateMVars v
    let q ← mkAppM ``toExpr #[v]
    let val ← unsafe evalExpr Expr (mkConst ``Expr) q
    addAndCompile (.defnDecl { name, levelParams := [], type := ty, value := val, hints := .abbrev, safety := .safe })
    let u ← getLevel ty
    let prop ← mkEq v (mkConst name)
    let proof := mkApp2 (mkConst ``Eq.refl [u]) ty (mkConst name)
    addDecl (.thmDecl { name := name.appendAfter "_eq", levelParams := [], type := prop, value := proof })

/-- `eachOf n := l by f as g_`, for an explicit list `l` and a function `f` such that `f a = some (c, d)` where `c` is a constructor `X` of
an enumeration: for each element `a` defines `text_X` as `a` and proves `text_X_eq : f text_X = some (c, g_X)`, where `g_X` is a definition
that exists. Then proves `n_eq : l = [text_X, …]` and `n : traverse f l = some [(c, g_X), …]`. -/
elab "eachOf " n:ident " := " l:term " by " f:term " as " pre:ident : command => do
  let ns ← getCurrNamespace
  let q ← `((List.map (fun x => Option.map (fun p => toString (repr p.1)) ($f x)) $l : List (Option String)))
  liftTermElabM do
    let l ← Term.elabTerm l none
    let f ← Term.elabTerm f none
    let q ← Term.elabTerm q none
    Term.synthesizeSyntheticMVarsNoPostponing
    let l ← instantiateMVars l
    let f ← instantiateMVars f
    let q ← instantiateMVars q
    let targets ← unsafe evalExpr (List (Option String)) (← inferType q) q
    let listTy ← whnf (← inferType l)
    let ty := listTy.appArg!
    let items ← unsafe evalExpr (List Expr) (← mkAppM ``List #[mkConst ``Expr]) (← mkAppM ``List.map #[← mkAppOptM ``toExpr #[ty, none], l])
    let mut names : Array (Expr × Expr × Expr) := #[]
    for (x, c) in items.zip targets do
      let some c := c | throwError "failed"
      let c := c.toName
      let short := c.getString!
      let .str gns g := pre.getId | throwError "no prefix"
      let target := mkConst (gns ++ Name.mkSimple (g ++ short))
      let name := ns ++ Name.mkSimple ("text_" ++ short)
      addAndCompile (.defnDecl { name, levelParams := [], type := ty, value := x, hints := .abbrev, safety := .safe })
      let pair ← mkAppM ``Prod.mk #[mkConst c, target]
      let rhs ← mkAppM ``Option.some #[pair]
      let prop ← mkEq (mkApp f (mkConst name)) rhs
      addDecl (.thmDecl { name := name.appendAfter "_eq", levelParams := [], type := prop, value := ← mkEqRefl rhs })
      names := names.push (mkConst name, pair, mkConst (name.appendAfter "_eq"))
    let list ← mkListLit ty (names.toList.map (·.1))
    addDecl (.thmDecl { name := ns ++ n.getId.appendAfter "_eq", levelParams := [], type := ← mkEq l list, value := ← mkEqRefl list })
    let mut proof ← mkAppM ``traverse_nil #[f]
    for (_, _, h) in names.toList.reverse do
      proof ← mkAppM ``traverse_cons #[h, proof]
    addDecl (.thmDecl { name := ns ++ n.getId, levelParams := [], type := ← inferType proof, value := proof })

/-- The characters of lines of text. -/
def decode (l : List Nat) : String := String.ofList (l.map Char.ofNat)

/-- `chars n := f` defines `n` as the characters of the lines `f` and proves `n_eq : n.map decode = f`. -/
elab "chars " n:ident " := " f:ident : command => do
  let ns ← getCurrNamespace
  let name := ns ++ n.getId
  liftTermElabM do
    let fn ← realizeGlobalConstNoOverload f
    let ls ← unsafe evalConst (List String) fn
    let val := toExpr (ls.map fun s => s.toList.map Char.toNat)
    let ty := toTypeExpr (List (List Nat))
    addAndCompile (.defnDecl { name, levelParams := [], type := ty, value := val, hints := .abbrev, safety := .safe })
    let lhs ← mkAppM ``List.map #[mkConst ``decode, mkConst name]
    let prop ← mkEq lhs (mkConst fn)
    let proof := mkApp2 (mkConst ``Eq.refl [1]) (toTypeExpr (List String)) (mkConst fn)
    addDecl (.thmDecl { name := name.appendAfter "_eq", levelParams := [], type := prop, value := proof })

end Verif.Text
