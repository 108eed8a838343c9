import Lean.Elab.Term
import Lean.Meta.AppBuilder
import Verif.Text.Lex

/-! Tables of the names of constructors. -/

namespace Verif.Text
open Lean Elab Term Meta

/-- `names% T`, for a type `T` whose constructors have no arguments: the list of the constructors, with the numbers of their names. -/
elab "names% " t:ident : term => do
  let n ← realizeGlobalConstNoOverload t
  let .inductInfo i ← getConstInfo n | throwError "not an inductive type"
  let code (s : String) : Nat := s.foldl (fun n c => n * 256 + c.toNat) 0
  let es ← i.ctors.mapM fun c => mkAppM ``Prod.mk #[toExpr (code c.getString!), mkConst c]
  mkListLit (← mkAppM ``Prod #[mkConst ``Nat, mkConst n]) es

end Verif.Text
