import Verif.Source.Attr
import Lean.Meta.Tactic.Simp
import Lean.Elab.Tactic.Simproc
import Verif.Source.Semantics
import Verif.Source.Crate
import Verif.Proof.Basics

/-! Symbolic evaluation of the Rust fragment: the lemmas of the simp set `src`. -/

set_option linter.constructorNameAsVariable false
set_option backward.isDefEq.respectTransparency false

namespace Verif.Source
open Verif

open Lean Parser.Tactic in
/-- Evaluation by `simp`. Rewriting steps leave a proof, so that the kernel does not evaluate programs itself. -/
macro "evaluate" "[" ls:simpLemma,* "]" : tactic =>
  `(tactic| simp -implicitDefEqProofs (disch := omega) [src, -List.reduceReplicate, -List.map_replicate, -List.map_append, -List.map_map, -List.map_flatten, -List.map_reverse,
    -List.map_take, -List.map_drop, -Vector.toList_replicate, $ls,*])

/-! ### Outcomes -/

@[src] theorem R.ok_bind {α β : Type} (a : α) (f : α → R β) : (Except.ok a >>= f) = f a := (rfl)
@[src] theorem R.error_bind {α β : Type} (e : Err) (f : α → R β) : (Except.error e >>= f) = Except.error e := (rfl)
@[src] theorem R.bind_assoc {α β γ : Type} (x : R α) (f : α → R β) (g : β → R γ) :
    (x >>= f) >>= g = x >>= fun a => f a >>= g := by cases x <;> rfl
@[src] theorem R.ite_bind {α β : Type} (c : Prop) [Decidable c] (x y : R α) (f : α → R β) :
    (if c then x else y) >>= f = if c then x >>= f else y >>= f := by split <;> rfl
@[src] theorem R.map_eq {α β : Type} (x : R α) (f : α → β) : Except.map f x = x >>= fun a => .ok (f a) := by
  cases x <;> rfl
theorem R.bind_congr {α β : Type} {x : R α} {f g : α → R β} (h : ∀ a, f a = g a) : x >>= f = x >>= g := by
  rw [funext h]
@[src] theorem R.pure_eq {α : Type} (a : α) : (pure a : R α) = .ok a := (rfl)

@[src] theorem up_ok {α : Type} (a : α) : up (.ok a) = .ok a := (rfl)
@[src] theorem up_pure {α : Type} (a : α) : up (pure a) = .ok a := (rfl)
@[src] theorem up_error {α : Type} (p : Panic) : up (.error p : M α) = .error (.panic p) := (rfl)
@[src] theorem up_bind {α β : Type} (x : M α) (f : α → M β) : up (x >>= f) = up x >>= fun a => up (f a) := by
  cases x <;> rfl
@[src] theorem up_ite {α : Type} (c : Prop) [Decidable c] (x y : M α) :
    up (if c then x else y) = if c then up x else up y := by split <;> rfl

/-! ### Continuations -/

/-- What is done after an expression. -/
def bindCtl {α β : Type} (x : R (Ctl α × Env)) (f : α → E β) : R (Ctl β × Env) :=
  x >>= fun (c, env) =>
    match c with
    | .val a => f a env
    | .ret v => .ok (.ret v, env)
    | .cont => .ok (.cont, env)

@[src] theorem E.bind_apply {α β : Type} (x : E α) (f : α → E β) (env : Env) :
    (x >>= f) env = bindCtl (x env) f := (rfl)
@[src] theorem E.pure_apply {α : Type} (a : α) (env : Env) : (pure a : E α) env = .ok (.val a, env) := (rfl)

section
variable {α β γ : Type}
@[srcCtl] theorem bindCtl_val (a : α) (env : Env) (f : α → E β) : bindCtl (.ok (.val a, env)) f = f a env := (rfl)
@[srcCtl] theorem bindCtl_ret (v : Val) (env : Env) (f : α → E β) :
    bindCtl (.ok (.ret v, env)) f = .ok (.ret v, env) := (rfl)
@[srcCtl] theorem bindCtl_cont (env : Env) (f : α → E β) : bindCtl (.ok (.cont, env)) f = .ok (.cont, env) := (rfl)
@[srcCtl] theorem bindCtl_error (e : Err) (f : α → E β) : bindCtl (.error e) f = .error e := (rfl)
@[srcCtl] theorem bindCtl_bind (x : R γ) (g : γ → R (Ctl α × Env)) (f : α → E β) :
    bindCtl (x >>= g) f = x >>= fun c => bindCtl (g c) f := by cases x <;> rfl
@[srcCtl] theorem bindCtl_ite (c : Prop) [Decidable c] (x y : R (Ctl α × Env)) (f : α → E β) :
    bindCtl (if c then x else y) f = if c then bindCtl x f else bindCtl y f := by split <;> rfl
end

open Lean Meta Simp in
/-- A continuation is only looked at when it is reached. -/
simproc ↓ [src] bindCtlStep (bindCtl _ _) := fun e => do
  let_expr c@bindCtl α β x f := e | return .continue
  let r ← simp x
  let e' := mkApp4 c α β r.expr f
  let r' : Result ← match r.proof? with
    | none => pure { expr := e' }
    | some h => do
      let h ← mkCongrArg (mkApp2 c α β) h
      let h ← mkCongrFun h f
      pure { expr := e', proof? := some h }
  let some ext ← getSimpExtension? `srcCtl | return .done r'
  let thms ← ext.getTheorems
  match ← rewrite? e' thms.post {} "srcCtl" false with
  | some q => return .visit (← r'.mkEqTrans q)
  | none => return .done r'

/-- Leaving a scope entered with `n` variables. -/
def popScope {α : Type} (n : Nat) (x : R (Ctl α × Env)) : R (Ctl α × Env) :=
  x >>= fun (c, env) => .ok (c, env.drop (env.length - n))

section
variable {α β γ : Type}
@[src] theorem inScope_apply (x : E α) (env : Env) : inScope x env = popScope env.length (x env) := (rfl)
@[src] theorem popScope_ok (n : Nat) (c : Ctl α) (env : Env) :
    popScope n (.ok (c, env)) = .ok (c, env.drop (env.length - n)) := (rfl)
@[src] theorem popScope_error (n : Nat) (e : Err) : popScope n (.error e : R (Ctl α × Env)) = .error e := (rfl)
@[src] theorem popScope_bind (n : Nat) (x : R γ) (g : γ → R (Ctl α × Env)) :
    popScope n (x >>= g) = x >>= fun c => popScope n (g c) := by cases x <;> rfl
@[src] theorem popScope_ite (n : Nat) (c : Prop) [Decidable c] (x y : R (Ctl α × Env)) :
    popScope n (if c then x else y) = if c then popScope n x else popScope n y := by split <;> rfl
end

/-- The end of a function body. -/
def finish (ps : List (Id × Mode)) (x : R (Ctl Val × Env)) : R (Val × List Val) :=
  x >>= fun (c, env) =>
    ((ps.filter (·.2 = .mutRef)).mapM fun p => getVar p.1 env) >>= fun outs =>
      match c with
      | .val v => .ok (v, outs)
      | .ret v => .ok (v, outs)
      | .cont => .error .stuck

section
variable {γ : Type}
@[src] theorem finish_val (ps : List (Id × Mode)) (v : Val) (env : Env) :
    finish ps (.ok (.val v, env)) =
      ((ps.filter (·.2 = .mutRef)).mapM fun p => getVar p.1 env) >>= fun outs => .ok (v, outs) := (rfl)
@[src] theorem finish_ret (ps : List (Id × Mode)) (v : Val) (env : Env) :
    finish ps (.ok (.ret v, env)) =
      ((ps.filter (·.2 = .mutRef)).mapM fun p => getVar p.1 env) >>= fun outs => .ok (v, outs) := (rfl)
@[src] theorem finish_error (ps : List (Id × Mode)) (e : Err) : finish ps (.error e) = .error e := (rfl)
@[src] theorem finish_bind (ps : List (Id × Mode)) (x : R γ) (g : γ → R (Ctl Val × Env)) :
    finish ps (x >>= g) = x >>= fun c => finish ps (g c) := by cases x <;> rfl
@[src] theorem finish_ite (ps : List (Id × Mode)) (c : Prop) [Decidable c] (x y : R (Ctl Val × Env)) :
    finish ps (if c then x else y) = if c then finish ps x else finish ps y := by split <;> rfl
end

/-! ### The crate -/

/-- The context in which the body of a function called at depth `d + 1` is evaluated. -/
def ctx (T : Target) (F d : Nat) : Ctx where
  T := T
  fuel := F
  const := constVal T crate
  sig f := (crate.fn f).params.map (·.2)
  call := call T crate F d

@[src] theorem ctx_T (T : Target) (F d : Nat) : (ctx T F d).T = T := (rfl)
@[src] theorem ctx_fuel (T : Target) (F d : Nat) : (ctx T F d).fuel = F := (rfl)
@[src] theorem ctx_const (T : Target) (F d : Nat) : (ctx T F d).const = constVal T crate := (rfl)
@[src] theorem ctx_call (T : Target) (F d : Nat) : (ctx T F d).call = call T crate F d := (rfl)

/-! ### One lemma per expression form

They are about an expression applied to variables, so that the bodies of loops and closures stay folded. -/

section
variable (K : Ctx) (env : Env)

@[src] theorem eval_int (t : IntTy) (n : Nat) : eval K (.int t n) env = .ok (.val (mkInt t n), env) := by rw [eval]; rfl
@[src] theorem eval_str (s : String) : eval K (.str s) env = .ok (.val (.str s), env) := by rw [eval]; rfl
@[src] theorem eval_unit : eval K .unit env = .ok (.val .unit, env) := by rw [eval]; rfl
@[src] theorem eval_var (x : Id) : eval K (.var x) env = getVar x env >>= fun v => .ok (.val v, env) := by rw [eval]; rfl
@[src] theorem eval_const (c : Const) : eval K (.const c) env = K.const c >>= fun v => .ok (.val v, env) := by
  rw [eval]; rfl
@[src] theorem eval_not (e : Expr) : eval K (.not e) env = bindCtl (eval K e env) fun v => lift (evalNot v) := by
  rw [eval]; rfl
@[src] theorem eval_bin (op : BinOp) (a b : Expr) :
    eval K (.bin op a b) env =
      bindCtl (eval K a env) fun x env => bindCtl (eval K b env) fun y => lift (evalBin K.T op x y) := by rw [eval]; rfl
@[src] theorem eval_andAlso (a b : Expr) :
    eval K (.andAlso a b) env =
      bindCtl (eval K a env) fun v env => branch v (eval K b) (pure (.bool false)) env := by rw [eval]; rfl
@[src] theorem eval_cast (e : Expr) (t : IntTy) :
    eval K (.cast e t) env = bindCtl (eval K e env) fun v => lift (evalCast K.T t v) := by rw [eval]; rfl
@[src] theorem eval_from (t : IntTy) (e : Expr) :
    eval K (.from t e) env = bindCtl (eval K e env) fun v => lift (evalFrom t v) := by rw [eval]; rfl
@[src] theorem eval_field (e : Expr) (f : Id) :
    eval K (.field e f) env = bindCtl (eval K e env) fun v => lift (getAcc v (.fld f)) := by rw [eval]; rfl
@[src] theorem eval_index (e i : Expr) :
    eval K (.index e i) env =
      bindCtl (eval K e env) fun v env => bindCtl (eval K i env) fun n env =>
        bindCtl (ofUsize n env) fun n => lift (getAcc v (.idx n)) := by rw [eval]; rfl
@[src] theorem eval_slice (e lo hi : Expr) :
    eval K (.slice e lo hi) env =
      bindCtl (eval K e env) fun v env => bindCtl (eval K lo env) fun a env => bindCtl (ofUsize a env) fun a env =>
        bindCtl (eval K hi env) fun b env => bindCtl (ofUsize b env) fun b => lift (getAcc v (.rng a b)) := by
  rw [eval]; rfl
@[src] theorem eval_sliceTo (e hi : Expr) :
    eval K (.sliceTo e hi) env =
      bindCtl (eval K e env) fun v env =>
        bindCtl (eval K hi env) fun b env => bindCtl (ofUsize b env) fun b => lift (getAcc v (.rng 0 b)) := by
  rw [eval]; rfl
@[src] theorem eval_sliceFrom (e lo : Expr) :
    eval K (.sliceFrom e lo) env =
      bindCtl (eval K e env) fun v env => bindCtl (eval K lo env) fun a env => bindCtl (ofUsize a env) fun a env =>
        bindCtl (ofSeq v env) fun xs => lift (getAcc v (.rng a xs.length)) := by rw [eval]; rfl
@[src] theorem eval_range (lo hi : Expr) :
    eval K (.range lo hi) env =
      bindCtl (eval K lo env) fun a env => bindCtl (eval K hi env) fun b => lift (evalRange false a b) := by
  rw [eval]; rfl
@[src] theorem eval_rangeIncl (lo hi : Expr) :
    eval K (.rangeIncl lo hi) env =
      bindCtl (eval K lo env) fun a env => bindCtl (eval K hi env) fun b => lift (evalRange true a b) := by
  rw [eval]; rfl
@[src] theorem eval_array (es : List Expr) :
    eval K (.array es) env = bindCtl (evalList K es env) fun vs => pure (.seq vs) := by rw [eval]; rfl
@[src] theorem eval_repeat (e n : Expr) :
    eval K (.repeat e n) env =
      bindCtl (eval K e env) fun v env => bindCtl (eval K n env) fun n env =>
        bindCtl (ofUsize n env) fun n => pure (.seq (List.replicate n v)) := by rw [eval]; rfl
@[src] theorem eval_tup (es : List Expr) :
    eval K (.tup es) env = bindCtl (evalList K es env) fun vs => pure (.tup vs) := by rw [eval]; rfl
@[src] theorem eval_struct (s : Struct) (fs : List Id) (es : List Expr) :
    eval K (.struct s fs es) env = bindCtl (evalList K es env) fun vs => pure (.struct s (fs.zip vs)) := by rw [eval]; rfl
@[src] theorem eval_ctor (c : Ctor) (es : List Expr) :
    eval K (.ctor c es) env = bindCtl (evalList K es env) fun vs => pure (.enum c vs) := by rw [eval]; rfl
@[src] theorem eval_call (f : Fn) (args : List Expr) :
    eval K (.call f args) env =
      bindCtl (evalArgs K (K.sig f) args env) fun as env => bindCtl (readArgs as env) fun vs env =>
        bindCtl (lift (K.call f vs) env) fun r env => bindCtl (writeArgs as r.2 env) fun _ => pure r.1 := by
  rw [eval]; rfl
@[src] theorem eval_prim (p : Prim) (args : List Expr) :
    eval K (.prim p args) env = bindCtl (evalList K args env) fun vs => lift (evalPrim K.T p vs) := by rw [eval]; rfl
@[src] theorem eval_mutPrim (p : MutPrim) (x : Expr) (args : List Expr) :
    eval K (.mutPrim p x args) env =
      bindCtl (evalPlace K x env) fun path env => bindCtl (readPath path env) fun v env =>
        bindCtl (evalList K args env) fun vs env => bindCtl (lift (evalMutPrim p v vs) env) fun r env =>
          bindCtl (writePath path r.1 env) fun _ => pure r.2 := by
  rw [eval]; rfl
@[src] theorem eval_appendFrom (x y : Expr) :
    eval K (.appendFrom x y) env =
      bindCtl (evalPlace K x env) fun p env => bindCtl (evalPlace K y env) fun q env =>
        bindCtl (readPath p env) fun v env => bindCtl (readPath q env) fun w env =>
          bindCtl (lift (evalMutPrim .append v [w]) env) fun r env =>
            bindCtl (writePath p r.1 env) fun _ env => bindCtl (writePath q (.seq []) env) fun _ => pure r.2 := by
  rw [eval]; rfl
@[src] theorem eval_map (e : Expr) (p : Pat) (body : Expr) :
    eval K (.map e p body) env =
      bindCtl (eval K e env) fun v env => bindCtl (ofSeq v env) fun xs env =>
        bindCtl (mapLoop (fun x => do let _ ← bindPat p x; eval K body) xs env) fun ys => pure (.seq ys) := by
  rw [eval]; rfl
@[src] theorem eval_ite (c a b : Expr) :
    eval K (.ite c a b) env = bindCtl (eval K c env) fun v => branch v (eval K a) (eval K b) := by rw [eval]; rfl
@[src] theorem eval_match (e : Expr) (ps : List Pat) (bodies : List Expr) :
    eval K (.match e ps bodies) env = bindCtl (eval K e env) fun v => evalMatch K v ps bodies := by rw [eval]; rfl
/-- Statements and a last expression, in order. -/
def evalSeq (K : Ctx) : List Expr → Expr → E Val
  | [], e => eval K e
  | s :: ss, e => fun env => bindCtl (eval K s env) fun _ => evalSeq K ss e
@[src] theorem evalSeq_nil (e : Expr) : evalSeq K [] e env = eval K e env := (rfl)
@[src] theorem evalSeq_cons (s : Expr) (ss : List Expr) (e : Expr) :
    evalSeq K (s :: ss) e env = bindCtl (eval K s env) fun _ => evalSeq K ss e := (rfl)
theorem evalSeq_eq (ss : List Expr) (e : Expr) : evalSeq K ss e = (evalList K ss >>= fun _ => eval K e) := by
  induction ss with
  | nil => rw [evalList]; rfl
  | cons s ss ih =>
    funext env
    rw [evalList, evalSeq_cons, ih]
    show bindCtl (eval K s env) _ = bindCtl (bindCtl (eval K s env) _) _
    generalize eval K s env = r
    cases r with
    | error => rfl
    | ok a =>
      obtain ⟨c, env'⟩ := a
      cases c with
      | ret | cont => rfl
      | val v =>
        show bindCtl (evalList K ss env') _ = bindCtl (bindCtl (evalList K ss env') _) _
        generalize evalList K ss env' = r
        cases r with
        | error => rfl
        | ok a => obtain ⟨c, env''⟩ := a; cases c <;> rfl
@[src] theorem eval_block (ss : List Expr) (e : Expr) :
    eval K (.block ss e) env = popScope env.length (evalSeq K ss e env) := by rw [eval, evalSeq_eq]; rfl
@[src] theorem eval_let (p : Pat) (e : Expr) :
    eval K (.let p e) env = bindCtl (eval K e env) fun v => bindPat p v := by rw [eval]; rfl
@[src] theorem eval_decl (x : Id) : eval K (.decl x) env = .ok (.val .unit, (x, .unit) :: env) := by rw [eval]; rfl
@[src] theorem eval_assign (x e : Expr) :
    eval K (.assign x e) env =
      bindCtl (eval K e env) fun v env => bindCtl (evalPlace K x env) fun p => writePath p v := by rw [eval]; rfl
@[src] theorem eval_assignOp (op : BinOp) (x e : Expr) :
    eval K (.assignOp op x e) env =
      bindCtl (eval K e env) fun v env => bindCtl (evalPlace K x env) fun p env => bindCtl (readPath p env) fun w env =>
        bindCtl (lift (evalBin K.T op w v) env) fun r => writePath p r := by
  rw [eval]; rfl
@[src] theorem eval_return (e : Expr) :
    eval K (.return e) env = bindCtl (eval K e env) fun v env => .ok (.ret v, env) := by rw [eval]; rfl
@[src] theorem eval_continue : eval K .continue env = .ok (.cont, env) := by rw [eval]
/-- The end of `e?`. -/
def tryVal (v : Val) : E Val :=
  match v with
  | .enum .Ok [w] => pure w
  | .enum .Err [w] => fun env => .ok (.ret (.enum .Err [w]), env)
  | _ => stuck
@[src] theorem tryVal_ok (v : Val) : tryVal (.enum .Ok [v]) env = .ok (.val v, env) := (rfl)
@[src] theorem tryVal_err (v : Val) : tryVal (.enum .Err [v]) env = .ok (.ret (.enum .Err [v]), env) := (rfl)
@[src] theorem eval_try (e : Expr) : eval K (.try e) env = bindCtl (eval K e env) fun v => tryVal v := by rw [eval]; rfl
@[src] theorem eval_while (c body : Expr) :
    eval K (.while c body) env = whileLoop (eval K c) (eval K body) K.fuel env := by rw [eval]
@[src] theorem eval_for (p : Pat) (e body : Expr) :
    eval K (.for p e body) env =
      bindCtl (eval K e env) fun v env => bindCtl (ofSeq v env) fun xs =>
        forLoop (fun x => do let _ ← bindPat p x; eval K body) xs := by rw [eval]; rfl
@[src] theorem eval_forMut (x : Id) (place body : Expr) :
    eval K (.forMut x place body) env =
      bindCtl (evalPlace K place env) fun p env => bindCtl (readPath p env) fun v env => bindCtl (ofSeq v env) fun xs =>
        forLoop (mutStep p x [] (eval K body)) (List.range xs.length) := by rw [eval]; rfl
@[src] theorem eval_forMutEnum (i x : Id) (place body : Expr) :
    eval K (.forMutEnum i x place body) env =
      bindCtl (evalPlace K place env) fun p env => bindCtl (readPath p env) fun v env => bindCtl (ofSeq v env) fun xs =>
        forLoop (fun k => mutStep p x [(i, .usize k)] (eval K body) k) (List.range xs.length) := by rw [eval]; rfl
/-- One iteration of a loop over `place.iter_mut().zip(ys)`. -/
def zipStep (p : Path) (x : Id) (pat : Pat) (body : E Val) (ky : Nat × Val) : E Val :=
  match matchPat pat ky.2 with
  | some bs => mutStep p x bs body ky.1
  | none => stuck
@[src] theorem eval_forMutZip (x : Id) (pat : Pat) (place e body : Expr) :
    eval K (.forMutZip x pat place e body) env =
      bindCtl (evalPlace K place env) fun p env => bindCtl (readPath p env) fun v env => bindCtl (ofSeq v env) fun xs env =>
        bindCtl (eval K e env) fun w env => bindCtl (ofSeq w env) fun ys =>
          forLoop (zipStep p x pat (eval K body)) ((List.range xs.length).zip ys) := by rw [eval]; rfl

@[src] theorem evalPlace_var (x : Id) : evalPlace K (.var x) env = .ok (.val ⟨x, []⟩, env) := by rw [evalPlace]; rfl
@[src] theorem evalPlace_field (e : Expr) (f : Id) :
    evalPlace K (.field e f) env = bindCtl (evalPlace K e env) fun p => pure (p.push (.fld f)) := by rw [evalPlace]; rfl
@[src] theorem evalPlace_index (e i : Expr) :
    evalPlace K (.index e i) env =
      bindCtl (evalPlace K e env) fun p env => bindCtl (eval K i env) fun n env =>
        bindCtl (ofUsize n env) fun n => pure (p.push (.idx n)) := by rw [evalPlace]; rfl
@[src] theorem evalPlace_slice (e lo hi : Expr) :
    evalPlace K (.slice e lo hi) env =
      bindCtl (evalPlace K e env) fun p env => bindCtl (eval K lo env) fun a env => bindCtl (ofUsize a env) fun a env =>
        bindCtl (eval K hi env) fun b env => bindCtl (ofUsize b env) fun b => pure (p.push (.rng a b)) := by
  rw [evalPlace]; rfl
@[src] theorem evalPlace_sliceTo (e hi : Expr) :
    evalPlace K (.sliceTo e hi) env =
      bindCtl (evalPlace K e env) fun p env => bindCtl (eval K hi env) fun b env =>
        bindCtl (ofUsize b env) fun b => pure (p.push (.rng 0 b)) := by rw [evalPlace]; rfl
@[src] theorem evalPlace_sliceFrom (e lo : Expr) :
    evalPlace K (.sliceFrom e lo) env =
      bindCtl (evalPlace K e env) fun p env => bindCtl (eval K lo env) fun a env => bindCtl (ofUsize a env) fun a env =>
        bindCtl (readPath p env) fun v env => bindCtl (ofSeq v env) fun xs => pure (p.push (.rng a xs.length)) := by
  rw [evalPlace]; rfl

@[src] theorem evalList_nil : evalList K [] env = .ok (.val [], env) := by rw [evalList]; rfl
@[src] theorem evalList_cons (e : Expr) (es : List Expr) :
    evalList K (e :: es) env =
      bindCtl (eval K e env) fun v env => bindCtl (evalList K es env) fun vs => pure (v :: vs) := by rw [evalList]; rfl

@[src] theorem evalArgs_nil : evalArgs K [] [] env = .ok (.val [], env) := by rw [evalArgs]; rfl
@[src] theorem evalArgs_val (ms : List Mode) (e : Expr) (es : List Expr) :
    evalArgs K (.val :: ms) (e :: es) env =
      bindCtl (eval K e env) fun v env => bindCtl (evalArgs K ms es env) fun as => pure (.val v :: as) := by
  rw [evalArgs]; rfl
@[src] theorem evalArgs_mutRef (ms : List Mode) (e : Expr) (es : List Expr) :
    evalArgs K (.mutRef :: ms) (e :: es) env =
      bindCtl (evalPlace K e env) fun p env => bindCtl (evalArgs K ms es env) fun as => pure (.place p :: as) := by
  rw [evalArgs]; rfl

/-- The choice of an arm. -/
def arm (r : Option (List (Id × Val))) (a b : E Val) : E Val :=
  match r with
  | some bs => inScope do
    let _ ← push bs
    a
  | none => b
@[src] theorem arm_some (bs : List (Id × Val)) (a b : E Val) :
    arm (some bs) a b env = popScope env.length (a (bs ++ env)) := (rfl)
@[src] theorem arm_none (a b : E Val) : arm none a b env = b env := (rfl)
@[src] theorem evalMatch_cons (v : Val) (p : Pat) (ps : List Pat) (e : Expr) (es : List Expr) :
    evalMatch K v (p :: ps) (e :: es) env = arm (matchPat p v) (eval K e) (evalMatch K v ps es) env := by
  rw [evalMatch]; cases matchPat p v <;> rfl

@[src] theorem lift_apply {α : Type} (x : R α) : lift x env = x >>= fun a => .ok (.val a, env) := (rfl)
@[src] theorem readPath_apply (p : Path) :
    readPath p env = getVar p.root env >>= fun v => getAccs v p.accs >>= fun w => .ok (.val w, env) := (rfl)
@[src] theorem writePath_apply (p : Path) (w : Val) :
    writePath p w env = getVar p.root env >>= fun v => setAccs v p.accs w >>= fun v' =>
      setVar p.root v' env >>= fun env' => .ok (.val .unit, env') := (rfl)
@[src] theorem push_apply (bs : List (Id × Val)) : push bs env = .ok (.val .unit, bs ++ env) := (rfl)
@[src] theorem branch_apply (c : Bool) (a b : E Val) : branch (.bool c) a b env = if c then a env else b env := by
  cases c <;> rfl
@[src] theorem ofSeq_apply (xs : List Val) : ofSeq (.seq xs) env = .ok (.val xs, env) := (rfl)
@[src] theorem ofUsize_apply (n : Nat) : ofUsize (.usize n) env = .ok (.val n, env) := (rfl)
/-- The end of a binding. -/
def bound (r : Option (List (Id × Val))) : E Val :=
  match r with
  | some bs => push bs
  | none => stuck
@[src] theorem bound_some (bs : List (Id × Val)) : bound (some bs) env = .ok (.val .unit, bs ++ env) := (rfl)
@[src] theorem bindPat_apply (p : Pat) (v : Val) : bindPat p v env = bound (matchPat p v) env := (rfl)
@[src] theorem mutStep_apply (p : Path) (x : Id) (bs : List (Id × Val)) (body : E Val) (k : Nat) :
    mutStep p x bs body k env =
      getVar p.root env >>= fun v => getAccs v (p.accs ++ [.idx k]) >>= fun cur =>
        body ((x, cur) :: bs ++ env) >>= fun r =>
          getVar x r.2 >>= fun new =>
            writePath ⟨p.root, p.accs ++ [.idx k]⟩ new (r.2.drop (r.2.length - env.length)) >>= fun r' => .ok (r.1, r'.2) := by
  simp only [mutStep, readPath, Path.push, R.bind_assoc, R.ok_bind]

end

attribute [src] getVar setVar getAccs setAccs getAcc setAcc Path.push
  evalBin bvBin usizeBin evalNot evalFrom evalRange evalPrim evalMutPrim evalShift shiftAmount
  mkInt matchPat matchPats readArgs writeArgs
  List.zip List.zipWith List.map_cons List.map_nil List.length_cons List.length_nil List.filter List.mapM_cons
  List.mapM_nil List.drop_zero List.drop_succ_cons List.cons_append List.nil_append

/-! ### Encoded data -/

/-- The value of a slice, array or vector of bytes. -/
abbrev bytes (xs : List U8) : Val := .seq (xs.map .u8)
/-- The value of a slice, array or vector of 32-bit words. -/
abbrev words (xs : List U32) : Val := .seq (xs.map .u32)

attribute [src] bytes words

@[src] theorem seq_replicate_u8 (n : Nat) (x : U8) :
    Val.seq (List.replicate n (.u8 x)) = .seq ((Vector.replicate n x).toList.map .u8) := by simp
@[src] theorem seq_replicate_u32 (n : Nat) (x : U32) :
    Val.seq (List.replicate n (.u32 x)) = .seq ((Vector.replicate n x).toList.map .u32) := by simp

section
variable {α β : Type}
@[src] theorem idx_map (f : α → β) (xs : List α) (i : Nat) : idx (xs.map f) i = idx xs i >>= fun x => .ok (f x) := by
  simp only [idx, List.getElem?_map]; cases xs[i]? <;> rfl
@[src] theorem upd_map (f : α → β) (xs : List α) (i : Nat) (x : α) :
    upd (xs.map f) i (f x) = upd xs i x >>= fun ys => .ok (ys.map f) := by
  simp only [upd, List.length_map]; split <;> simp [Bind.bind, Except.bind]
@[src] theorem slice_map (f : α → β) (xs : List α) (a b : Nat) :
    slice (xs.map f) a b = slice xs a b >>= fun ys => .ok (ys.map f) := by
  simp only [slice, List.length_map]; split <;> simp [Bind.bind, Except.bind, List.map_take]
@[src] theorem slice_length (xs : List α) (a : Nat) : slice xs a xs.length = sliceFrom xs a := by
  simp [slice, sliceFrom]
@[src] theorem idx_toList {n : Nat} (v : Vector α n) (i : Nat) : idx v.toList i = vidx v i := by
  simp only [idx, vidx]
  split <;> rename_i h
  · have := List.getElem?_eq_some_iff.mp h
    obtain ⟨h1, h2⟩ := this
    have h3 : i < n := by simpa using h1
    simp only [h3, dite_true]; congr 1; rw [← h2]; simp
  · have : ¬ i < n := by
      intro h'; have := List.getElem?_eq_none_iff.mp h; simp at this; omega
    simp [this]
@[src] theorem upd_toList {n : Nat} (v : Vector α n) (i : Nat) (x : α) :
    upd v.toList i x = vupd v i x >>= fun w => .ok w.toList := by
  simp only [upd, vupd, Vector.length_toList]
  split <;> rename_i h
  · simp only [Bind.bind, Except.bind]; congr 1
  · simp [Bind.bind, Except.bind]
end

@[src] theorem idx_cons_zero {α : Type} (x : α) (xs : List α) : idx (x :: xs) 0 = .ok x := by simp [idx]
@[src] theorem idx_cons_succ {α : Type} (x : α) (xs : List α) (n : Nat) : idx (x :: xs) (n + 1) = idx xs n := by simp [idx]
@[src] theorem take_map {α : Type} (f : α → Val) (xs : List α) (n : Nat) : (xs.map f).take n = (xs.take n).map f := by simp
@[src] theorem drop_map {α : Type} (f : α → Val) (xs : List α) (n : Nat) : (xs.map f).drop n = (xs.drop n).map f := by simp
@[src] theorem push_map {α : Type} (f : α → Val) (xs : List α) (x : α) : xs.map f ++ [f x] = (xs ++ [x]).map f := by simp
@[src] theorem ElemTy.size_vec (T : Target) : ElemTy.size T .vec = T.vecSize := rfl
@[src] theorem ElemTy.size_u8 (T : Target) : ElemTy.size T .u8 = 1 := rfl
@[src] theorem reverse_map {α : Type} (f : α → Val) (xs : List α) : (xs.map f).reverse = xs.reverse.map f := by simp
@[src] theorem append_map {α : Type} (f : α → Val) (xs ys : List α) : xs.map f ++ ys.map f = (xs ++ ys).map f := by simp

theorem slice_vector {α : Type} {n : Nat} (v : Vector α n) {a b : Nat} (h1 : a ≤ b) (h2 : b ≤ n) :
    slice v.toList a b = .ok ((v.toList.take b).drop a) := by
  simp [slice, h1, h2]
theorem slice_vector_end {α : Type} {n : Nat} (v : Vector α n) {a : Nat} (h : a ≤ n) :
    slice v.toList a n = .ok (v.toList.drop a) := by
  rw [slice_vector v h (Nat.le_refl n), List.take_of_length_le (by simp)]

/-! ### Casts -/

section
variable (T : Target)
@[src] theorem cast_u8_u8 (x : U8) : evalCast T .u8 (.u8 x) = .ok (.u8 x) := by simp [evalCast, src]
@[src] theorem cast_u32_u8 (x : U32) : evalCast T .u8 (.u32 x) = .ok (.u8 (x.setWidth 8)) := (rfl)
@[src] theorem cast_u64_u8 (x : U64) : evalCast T .u8 (.u64 x) = .ok (.u8 (x.setWidth 8)) := (rfl)
@[src] theorem cast_usize_u8 (n : Nat) : evalCast T .u8 (.usize n) = .ok (.u8 (BitVec.ofNat 8 n)) := (rfl)
@[src] theorem cast_u8_u32 (x : U8) : evalCast T .u32 (.u8 x) = .ok (.u32 (x.setWidth 32)) := by
  simp only [evalCast, src, BitVec.ofNat_toNat]
@[src] theorem cast_u64_u32 (x : U64) : evalCast T .u32 (.u64 x) = .ok (.u32 (x.setWidth 32)) := (rfl)
@[src] theorem cast_usize_u32 (n : Nat) : evalCast T .u32 (.usize n) = .ok (.u32 (BitVec.ofNat 32 n)) := (rfl)
@[src] theorem cast_u8_u64 (x : U8) : evalCast T .u64 (.u8 x) = .ok (.u64 (x.setWidth 64)) := by
  simp only [evalCast, src, BitVec.ofNat_toNat]
@[src] theorem cast_u32_u64 (x : U32) : evalCast T .u64 (.u32 x) = .ok (.u64 (x.setWidth 64)) := by
  simp only [evalCast, src, BitVec.ofNat_toNat]
@[src] theorem cast_usize_u64 (n : Nat) : evalCast T .u64 (.usize n) = .ok (.u64 (BitVec.ofNat 64 n)) := (rfl)
@[src] theorem cast_u8_usize (x : U8) : evalCast T .usize (.u8 x) = .ok (.usize x.toNat) := by
  have := T.two_pow_ge; have := x.isLt
  simp only [evalCast, src]; rw [Nat.mod_eq_of_lt (by omega)]
@[src] theorem cast_u32_usize (x : U32) : evalCast T .usize (.u32 x) = .ok (.usize x.toNat) := by
  have := T.two_pow_ge; have := x.isLt
  simp only [evalCast, src]; rw [Nat.mod_eq_of_lt (by omega)]
@[src] theorem cast_u64_usize (x : U64) : evalCast T .usize (.u64 x) = .ok (.usize (x.toNat % 2 ^ T.bits)) := (rfl)
end

/-! ### Small numbers -/

theorem Small.add (T : Target) {a b : Nat} (h : a + b < 4294967296) : T.add a b = .ok (a + b) :=
  T.add_ok (Nat.lt_of_lt_of_le h T.two_pow_ge)
theorem Small.mul (T : Target) {a b : Nat} (h : a * b < 4294967296) : T.mul a b = .ok (a * b) :=
  T.mul_ok (Nat.lt_of_lt_of_le h T.two_pow_ge)
theorem Small.sub (T : Target) {a b : Nat} (h : b ≤ a) : T.sub a b = .ok (a - b) := T.sub_ok h
theorem Small.shl {w : Nat} (T : Target) (a : BitVec w) {s : Nat} (h : s < w) : bvShl T a s = .ok (a <<< s) := if_pos h
theorem Small.shr {w : Nat} (T : Target) (a : BitVec w) {s : Nat} (h : s < w) : bvShr T a s = .ok (a >>> s) := if_pos h
theorem Small.ushr (T : Target) {a s : Nat} (h : s < 32) : usizeShr T a s = .ok (a >>> s) :=
  if_pos (Nat.lt_of_lt_of_le h T.bits_ge)

/-! ### Loops -/

/-- The rest of a loop after an iteration. -/
def nextIter (x : R (Ctl Val × Env)) (k : Env → R (Ctl Val × Env)) : R (Ctl Val × Env) :=
  x >>= fun (c, env) =>
    match c with
    | .ret v => .ok (.ret v, env)
    | .val _ | .cont => k env

section
variable {γ : Type}
@[src] theorem nextIter_val (v : Val) (env : Env) (k : Env → R (Ctl Val × Env)) : nextIter (.ok (.val v, env)) k = k env := (rfl)
@[src] theorem nextIter_cont (env : Env) (k : Env → R (Ctl Val × Env)) : nextIter (.ok (.cont, env)) k = k env := (rfl)
@[src] theorem nextIter_ret (v : Val) (env : Env) (k : Env → R (Ctl Val × Env)) :
    nextIter (.ok (.ret v, env)) k = .ok (.ret v, env) := (rfl)
@[src] theorem nextIter_error (e : Err) (k : Env → R (Ctl Val × Env)) : nextIter (.error e) k = .error e := (rfl)
@[src] theorem nextIter_bind (x : R γ) (g : γ → R (Ctl Val × Env)) (k : Env → R (Ctl Val × Env)) :
    nextIter (x >>= g) k = x >>= fun c => nextIter (g c) k := by cases x <;> rfl
@[src] theorem nextIter_ite (c : Prop) [Decidable c] (x y : R (Ctl Val × Env)) (k : Env → R (Ctl Val × Env)) :
    nextIter (if c then x else y) k = if c then nextIter x k else nextIter y k := by split <;> rfl
end

@[src] theorem mem_range'_one {i a n : Nat} : i ∈ List.range' a n ↔ a ≤ i ∧ i < a + n := List.mem_range'_1

theorem forLoop_nil {α : Type} (step : α → E Val) (env : Env) : forLoop step [] env = .ok (.val .unit, env) := rfl
theorem forLoop_cons {α : Type} (step : α → E Val) (x : α) (xs : List α) (env : Env) :
    forLoop step (x :: xs) env = nextIter (inScope (step x) env) (forLoop step xs) := rfl

theorem forLoop_map {α β : Type} (f : α → β) (step : β → E Val) (xs : List α) :
    forLoop step (xs.map f) = forLoop (fun x => step (f x)) xs := by
  induction xs with
  | nil => rfl
  | cons x xs ih => funext env; simp only [List.map_cons, forLoop_cons, ih]

/-- A loop whose iterations are those of a model loop, under an invariant. -/
theorem forLoop_inv {α σ : Type} (step : α → E Val) (env : σ → Env) (Inv : σ → Prop) (body : α → σ → M σ) (xs : List α)
    (h : ∀ x ∈ xs, ∀ s, Inv s → ∀ k, nextIter (inScope (step x) (env s)) k = up (body x s) >>= fun s' => k (env s'))
    (hi : ∀ x ∈ xs, ∀ s, Inv s → ∀ s', body x s = .ok s' → Inv s') (s : σ) (h0 : Inv s) :
    forLoop step xs (env s) = up (forEach xs s body) >>= fun s' => .ok (.val .unit, env s') := by
  induction xs generalizing s with
  | nil => rfl
  | cons x xs ih =>
    rw [forLoop_cons]
    refine (h x (by simp) s h0 _).trans ?_
    simp only [forEach, List.foldlM_cons]
    cases hb : body x s with
    | error e => rfl
    | ok s' =>
      simp only [up_ok, R.ok_bind]
      rw [ih (fun y hy => h y (by simp [hy])) (fun y hy => hi y (by simp [hy])) s' (hi x (by simp) s h0 s' hb)]
      rfl

theorem forLoop_model {α σ : Type} {step : α → E Val} {xs : List α} {s : σ} {body : α → σ → M σ} (env : σ → Env) (m : M σ)
    (hm : m = forEach xs s body)
    (h : ∀ x ∈ xs, ∀ s, ∀ k, nextIter (inScope (step x) (env s)) k = up (body x s) >>= fun s' => k (env s')) :
    forLoop step xs (env s) = up m >>= fun s' => .ok (.val .unit, env s') :=
  hm ▸ forLoop_inv step env (fun _ => True) body xs (fun x hx s _ => h x hx s) (fun _ _ _ _ _ _ => trivial) s trivial

theorem forLoop_model_inv {α σ : Type} {step : α → E Val} {xs : List α} {s : σ} {body : α → σ → M σ} (env : σ → Env)
    (Inv : σ → Prop) (m : M σ) (hm : m = forEach xs s body) (h0 : Inv s)
    (h : ∀ x ∈ xs, ∀ s, Inv s → ∀ k, nextIter (inScope (step x) (env s)) k = up (body x s) >>= fun s' => k (env s'))
    (hi : ∀ x ∈ xs, ∀ s, Inv s → ∀ s', body x s = .ok s' → Inv s') :
    forLoop step xs (env s) = up m >>= fun s' => .ok (.val .unit, env s') :=
  hm ▸ forLoop_inv step env Inv body xs h hi s h0

theorem forLoop_eq {α σ : Type} (step : α → E Val) (env : σ → Env) (body : α → σ → M σ) (xs : List α)
    (h : ∀ x ∈ xs, ∀ s, ∀ k, nextIter (inScope (step x) (env s)) k = up (body x s) >>= fun s' => k (env s')) (s : σ) :
    forLoop step xs (env s) = up (forEach xs s body) >>= fun s' => .ok (.val .unit, env s') :=
  forLoop_inv step env (fun _ => True) body xs (fun x hx s _ => h x hx s) (fun _ _ _ _ _ _ => trivial) s trivial

/-- A loop over `iter_mut().enumerate()` that only assigns to its element. -/
theorem forEach_iterMut {α : Type} (f : Nat → α → α) (xs : List α) :
    forEach (List.range xs.length) xs (fun k s => idx s k >>= fun x => upd s k (f k x)) = .ok (xs.mapIdx f) := by
  rw [List.range_eq_range']
  obtain ⟨s', h1, h2, h3⟩ := forRange_inv 0 xs.length (Nat.zero_le _) xs
    (fun k s => idx s k >>= fun x => upd s k (f k x))
    (fun k s => ∃ h : s.length = xs.length, ∀ (i : Nat) (hi : i < xs.length),
      s[i]'(by omega) = if i < k then f i xs[i] else xs[i]) ⟨rfl, by simp⟩ (by
    rintro k s - hk ⟨hl, hs⟩
    refine ⟨s.set k (f k xs[k]), ?_, by simpa using hl, ?_⟩
    · rw [idx_ok _ _ (by omega), hs k hk]; simp [upd, hl, hk]
    · intro i hi
      rw [List.getElem_set]
      by_cases hik : k = i
      · subst hik; simp
      · rw [if_neg hik, hs i hi]
        have : (i < k) ↔ (i < k + 1) := by omega
        simp [this])
  refine h1.trans (congrArg _ ?_)
  apply List.ext_getElem
  · simpa using h2
  · intro i hi1 hi2
    rw [h3 i (by omega)]
    simp; omega

theorem forLoop_iterMut {α : Type} {step : Nat → E Val} {n : Nat} {xs : List α} (env : List α → Env) (f : Nat → α → α)
    (hn : n = xs.length)
    (h : ∀ i, i < n → ∀ s k, nextIter (inScope (step i) (env s)) k =
      up (idx s i) >>= fun x => up (upd s i (f i x)) >>= fun s' => k (env s')) :
    forLoop step (List.range n) (env xs) = .ok (.val .unit, env (xs.mapIdx f)) := by
  subst hn
  refine forLoop_model env (.ok (xs.mapIdx f)) (forEach_iterMut f xs).symm (fun i hi s k => ?_)
  rw [h i (by simpa using hi)]
  cases idx s i <;> rfl

theorem forLoop_iterMap {α : Type} {step : Nat → E Val} {n : Nat} {xs : List α} (env : List α → Env) (f : α → α)
    (hn : n = xs.length)
    (h : ∀ i, i < n → ∀ s k, nextIter (inScope (step i) (env s)) k =
      up (idx s i) >>= fun x => up (upd s i (f x)) >>= fun s' => k (env s')) :
    forLoop step (List.range n) (env xs) = .ok (.val .unit, env (xs.map f)) := by
  have : xs.map f = xs.mapIdx fun _ => f := by apply List.ext_getElem <;> simp
  rw [this]
  exact forLoop_iterMut env (fun _ => f) hn h

/-! ### Iterators -/

theorem mapLoop_model {γ δ : Type} {step : Val → E Val} {env : Env} (enc : γ → Val) (dec : δ → Val) (f : γ → M δ) (xs : List γ)
    (h : ∀ x ∈ xs, inScope (step (enc x)) env = up (f x) >>= fun y => .ok (.val (dec y), env)) :
    mapLoop step (xs.map enc) env = up (xs.mapM f) >>= fun ys => .ok (.val (ys.map dec), env) := by
  induction xs with
  | nil => rfl
  | cons x xs ih =>
    have e : mapLoop step ((x :: xs).map enc) env =
      bindCtl (inScope (step (enc x)) env) fun y env => bindCtl (mapLoop step (xs.map enc) env) fun ys => pure (y :: ys) := rfl
    have ih := ih fun y hy => h y (by simp [hy])
    rw [e, h x (by simp), List.mapM_cons]
    cases f x with
    | error p => rfl
    | ok y =>
      change bindCtl (mapLoop step (xs.map enc) env) _ = _
      rw [ih]
      cases xs.mapM f <;> rfl

theorem mapLoop_pure {γ δ : Type} {step : Val → E Val} {env : Env} (enc : γ → Val) (dec : δ → Val) (f : γ → δ) (xs : List γ)
    (h : ∀ x ∈ xs, inScope (step (enc x)) env = .ok (.val (dec (f x)), env)) :
    mapLoop step (xs.map enc) env = .ok (.val ((xs.map f).map dec), env) := by
  rw [mapLoop_model enc dec (fun x => .ok (f x)) xs h]
  have : xs.mapM (fun x => (.ok (f x) : M δ)) = .ok (xs.map f) := by
    induction xs with
    | nil => rfl
    | cons x xs ih => rw [List.mapM_cons, ih fun y hy => h y (by simp [hy])]; rfl
  rw [this]; rfl

theorem zipWith_zip {α β γ : Type} (g : α → β → γ) (xs : List α) (ys : List β) :
    List.zipWith g xs ys = (xs.zip ys).map fun p => g p.1 p.2 := by
  rw [List.zip_eq_zipWith, List.map_zipWith]

theorem flattenVals_map {α : Type} (f : α → Val) (xs : List (List α)) :
    flattenVals (xs.map fun x => .seq (x.map f)) = .ok (xs.flatten.map f) := by
  induction xs with
  | nil => rfl
  | cons x xs ih => simp [flattenVals, ih, Except.map]

theorem chunksAux_map {α β : Type} (f : α → β) (k n : Nat) (xs : List α) :
    chunksAux k n (xs.map f) = (chunksAux k n xs).map (List.map f) := by
  induction k generalizing xs with
  | zero => rfl
  | succ k ih => simp [chunksAux, ← List.map_drop, ih, ← List.map_take]

@[src] theorem chunksExact_map {α β : Type} (f : α → β) (n : Nat) (xs : List α) :
    chunksExact (xs.map f) n = chunksExact xs n >>= fun cs => .ok (cs.map (List.map f)) := by
  simp only [chunksExact, chunksAux_map, List.length_map]; split <;> rfl

@[src] theorem chunks_map {α β : Type} (f : α → β) (n : Nat) (xs : List α) :
    chunks (xs.map f) n = chunks xs n >>= fun cs => .ok (cs.map (List.map f)) := by
  simp only [chunks, chunksAux_map, List.length_map]; split <;> rfl

theorem whileLoop_true {c body : E Val} {env env' : Env} (n : Nat) (h : c env = .ok (.val (.bool true), env')) :
    whileLoop c body (n + 1) env = nextIter (inScope body env') (whileLoop c body n) := by
  show (c env >>= _) = _
  rw [h]; rfl
theorem whileLoop_false {c body : E Val} {env env' : Env} (n : Nat) (h : c env = .ok (.val (.bool false), env')) :
    whileLoop c body (n + 1) env = .ok (.val .unit, env') := by
  show (c env >>= _) = _
  rw [h]; rfl

/-- A `while` loop that counts. -/
theorem whileLoop_model {σ : Type} {c body : E Val} {F : Nat} {s : σ} (a n : Nat) (env : Nat → σ → Env) (b : Nat → σ → M σ)
    (hF : n < F)
    (hc : ∀ i, a ≤ i → i ≤ a + n → ∀ s, c (env i s) = .ok (.val (.bool (decide (i < a + n))), env i s))
    (hb : ∀ i, a ≤ i → i < a + n → ∀ s, ∀ k, nextIter (inScope body (env i s)) k = up (b i s) >>= fun s' => k (env (i + 1) s')) :
    whileLoop c body F (env a s) = up (forEach (List.range' a n) s b) >>= fun s' => .ok (.val .unit, env (a + n) s') := by
  induction n generalizing a F s with
  | zero =>
    obtain ⟨F, rfl⟩ := Nat.exists_eq_add_of_lt hF
    rw [whileLoop_false (env' := env a s) (0 + F) (by rw [hc a (Nat.le_refl _) (Nat.le_refl _)]; simp)]
    rfl
  | succ n ih =>
    obtain ⟨F, rfl⟩ := Nat.exists_eq_add_of_lt (Nat.lt_of_le_of_lt (Nat.zero_le _) hF)
    rw [whileLoop_true (env' := env a s) (0 + F) (by rw [hc a (Nat.le_refl _) (by omega)]; simp)]
    rw [hb a (Nat.le_refl _) (by omega), List.range'_succ]
    show _ = (up (b a s >>= fun s => forEach (List.range' (a + 1) n) s b) >>= _)
    rw [up_bind, R.bind_assoc]
    refine R.bind_congr fun s' => ?_
    have h := ih (F := 0 + F) (s := s') (a + 1) (by omega)
      (fun i h1 h2 s => by rw [hc i (by omega) (by omega), show a + 1 + n = a + (n + 1) by omega])
      (fun i h1 h2 => hb i (by omega) (by omega))
    rw [h, show a + 1 + n = a + (n + 1) by omega]

/-- `for x in xs { s.push(x) }` -/
theorem forEach_push {α : Type} (xs s : List α) : forEach xs s (fun x s => (.ok (s ++ [x]) : M (List α))) = .ok (s ++ xs) := by
  induction xs generalizing s with
  | nil => simp [forEach]
  | cons x xs ih =>
    show forEach xs (s ++ [x]) _ = _
    rw [ih]; simp

/-- The list `xs` after a loop over `xs.iter_mut().zip(ys)` that replaces `x` by `f x y`. -/
def zipUpd {α β : Type} (f : α → β → α) : List α → List β → List α
  | x :: xs, y :: ys => f x y :: zipUpd f xs ys
  | xs, [] => xs
  | [], _ => []

theorem forEach_zipUpd {α β : Type} (f : α → β → α) (pre xs : List α) (ys : List β) :
    forEach ((List.range' pre.length xs.length).zip ys) (pre ++ xs) (fun p s => idx s p.1 >>= fun x => upd s p.1 (f x p.2)) =
      .ok (pre ++ zipUpd f xs ys) := by
  induction xs generalizing pre ys with
  | nil => cases ys <;> simp [zipUpd, forEach]
  | cons x xs ih =>
    cases ys with
    | nil => simp [zipUpd, forEach]
    | cons y ys =>
      have h1 : idx (pre ++ x :: xs) pre.length = .ok x := by simp [idx]
      have h2 : upd (pre ++ x :: xs) pre.length (f x y) = .ok ((pre ++ [f x y]) ++ xs) := by simp [upd]
      have h := ih (pre ++ [f x y]) ys
      rw [List.length_append] at h
      rw [List.length_cons, List.range'_succ, List.zip_cons_cons]
      rw [forEach_cons]
      have h3 : (idx (pre ++ x :: xs) (pre.length, y).1 >>= fun z => upd (pre ++ x :: xs) (pre.length, y).1 (f z (pre.length, y).2)) =
          .ok ((pre ++ [f x y]) ++ xs) := by
        simp only [h1]; exact h2
      rw [h3]
      refine Eq.trans h ?_
      simp [zipUpd]

/-- A loop over `xs.iter_mut().zip(ys)`. -/
theorem forLoop_iterZip {α β : Type} {step : Nat × Val → E Val} {n : Nat} {xs : List α} (g : β → Val) {ys : List β}
    (env : List α → Env) (f : α → β → α) (hn : n = xs.length)
    (h : ∀ i, i < n → ∀ y s k, nextIter (inScope (step (i, g y)) (env s)) k =
      up (idx s i) >>= fun x => up (upd s i (f x y)) >>= fun s' => k (env s')) :
    forLoop step ((List.range n).zip (ys.map g)) (env xs) = .ok (.val .unit, env (zipUpd f xs ys)) := by
  have hz : (List.range n).zip (ys.map g) = ((List.range n).zip ys).map fun p => (p.1, g p.2) := by
    rw [List.zip_map_right]; rfl
  rw [hz, forLoop_map, forLoop_model env _ rfl (body := fun p s => idx s p.1 >>= fun x => upd s p.1 (f x p.2))]
  · have := forEach_zipUpd f [] xs ys
    simp only [List.length_nil, List.nil_append] at this
    rw [hn, List.range_eq_range', this]; rfl
  · rintro ⟨i, y⟩ hi s k
    rw [h i (List.mem_range.mp (List.of_mem_zip hi).1)]
    simp only [up_bind, R.bind_assoc]

theorem zipUpd_eq_zipWith {α : Type} (f : α → α → α) (xs ys : List α) (h : xs.length = ys.length) :
    zipUpd f xs ys = List.zipWith f xs ys := by
  induction xs generalizing ys with
  | nil => cases ys <;> simp_all [zipUpd]
  | cons x xs ih =>
    cases ys with
    | nil => simp at h
    | cons y ys => simp only [zipUpd, List.zipWith_cons_cons]; rw [ih]; simpa using h

end Verif.Source
