import Verif.Source.AttrTrace
import Verif.Source.Lemmas
import Verif.Source.Leak

/-! Symbolic evaluation of traces: the trace of an expression from the traces of its parts, and their outcomes as the simp set
`src` gives them. -/

set_option linter.constructorNameAsVariable false
set_option backward.isDefEq.respectTransparency false

namespace Verif.Source
open Verif

/-- What is seen after an outcome. -/
def after {α : Type} (x : R (Ctl α × Env)) (k : α → Env → Trace) : Trace :=
  match x with
  | .ok (.val a, env) => k a env
  | _ => []

section
variable {α : Type}
@[srcAfter] theorem after_val (a : α) (env : Env) (k : α → Env → Trace) : after (.ok (.val a, env)) k = k a env := rfl
@[srcAfter] theorem after_ret (v : Val) (env : Env) (k : α → Env → Trace) : after (.ok (.ret v, env)) k = [] := rfl
@[srcAfter] theorem after_cont (env : Env) (k : α → Env → Trace) : after (.ok (.cont, env)) k = [] := rfl
@[srcAfter] theorem after_error (e : Err) (k : α → Env → Trace) : after (.error e) k = [] := rfl
@[srcAfter] theorem after_ite (c : Prop) [Decidable c] (x y : R (Ctl α × Env)) (k : α → Env → Trace) :
    after (if c then x else y) k = if c then after x k else after y k := by split <;> rfl
end

open Lean Meta Simp in
/-- What comes after is only looked at when it is reached. -/
simproc ↓ [src] afterStep (after _ _) := fun e => do
  let_expr c@after α x f := e | return .continue
  let r ← simp x
  let e' := mkApp3 c α r.expr f
  let r' : Result ← match r.proof? with
    | none => pure { expr := e' }
    | some h => do
      let h ← mkCongrArg (mkApp c α) h
      let h ← mkCongrFun h f
      pure { expr := e', proof? := some h }
  let some ext ← getSimpExtension? `srcAfter | return .done r'
  let thms ← ext.getTheorems
  match ← rewrite? e' thms.post {} "srcAfter" false with
  | some q => return .visit (← r'.mkEqTrans q)
  | none => return .done r'

/-- The context in which the body of a function called at depth `d + 1` is evaluated with a trace. -/
def ctxT (T : Target) (F d : Nat) : CtxT where
  T := T
  fuel := F
  const := constVal T crate
  sig f := (crate.fn f).params.map (·.2)
  call := callT T crate F d

theorem ctxT_erase (T : Target) (F d : Nat) : (ctxT T F d).erase = ctx T F d := by
  show Ctx.mk _ _ _ _ _ = Ctx.mk _ _ _ _ _
  congr 1
  funext f vs
  exact callT_erase T crate F d f vs

@[src] theorem ctxT_sig (T : Target) (F d : Nat) : (ctxT T F d).sig = (ctx T F d).sig := rfl
@[src] theorem ctxT_call (T : Target) (F d : Nat) : (ctxT T F d).call = callT T crate F d := rfl

theorem bindT_trace {α β : Type} (x : ET α) (f : α → ET β) (env : Env) :
    ((x >>= f) env).1 = (x env).1 ++ after (x env).2 fun a env => (f a env).1 := by
  show (thenT (x env) f).1 = _
  rcases x env with ⟨t, e | ⟨a | v | _, env'⟩⟩ <;> simp [thenT, after]

theorem evalT_snd (K : CtxT) (e : Expr) (env : Env) : (evalT K e env).2 = eval K.erase e env := evalT_erase K e env
theorem evalPlaceT_snd (K : CtxT) (e : Expr) (env : Env) : (evalPlaceT K e env).2 = evalPlace K.erase e env := evalPlaceT_erase K e env
theorem evalListT_snd (K : CtxT) (es : List Expr) (env : Env) : (evalListT K es env).2 = evalList K.erase es env :=
  evalListT_erase K es env
theorem evalArgsT_snd (K : CtxT) (ms : List Mode) (es : List Expr) (env : Env) :
    (evalArgsT K ms es env).2 = evalArgs K.erase ms es env := evalArgsT_erase K ms es env
theorem quiet_fst {α : Type} (x : E α) (env : Env) : (quiet x env).1 = [] := rfl
theorem quiet_snd {α : Type} (x : E α) (env : Env) : (quiet x env).2 = x env := rfl
theorem emit_fst (t : Trace) (env : Env) : (emit t env).1 = t := rfl
theorem emit_snd (t : Trace) (env : Env) : (emit t env).2 = .ok (.val (), env) := rfl
theorem pureT_fst {α : Type} (a : α) (env : Env) : ((pure a : ET α) env).1 = [] := rfl
theorem inScopeT_fst {α : Type} (x : ET α) (env : Env) : (inScopeT x env).1 = (x env).1 := rfl
theorem after_nil {α : Type} (x : R (Ctl α × Env)) : after x (fun _ _ => []) = [] := by
  rcases x with e | ⟨a | v | _, env'⟩ <;> rfl

open Lean Parser.Tactic in
macro "trace_eq" "[" ls:simpLemma,* "]" : tactic =>
  `(tactic| simp only [bindT_trace, evalT_snd, evalPlaceT_snd, evalListT_snd, evalArgsT_snd, quiet_fst, quiet_snd, emit_fst, emit_snd,
    pureT_fst, inScopeT_fst, after_val, after_nil, List.nil_append, List.append_nil, $ls,*])

section
variable (K : CtxT) (env : Env)

@[src] theorem trace_int (t : IntTy) (n : Nat) : (evalT K (.int t n) env).1 = [] := by rw [evalT]; rfl
@[src] theorem trace_unit : (evalT K .unit env).1 = [] := by rw [evalT]; rfl
@[src] theorem trace_var (x : Id) : (evalT K (.var x) env).1 = [] := by rw [evalT]; rfl
@[src] theorem trace_const (c : Const) : (evalT K (.const c) env).1 = [] := by rw [evalT]; rfl
@[src] theorem trace_bin (op : BinOp) (a b : Expr) :
    (evalT K (.bin op a b) env).1 =
      (evalT K a env).1 ++ after (eval K.erase a env) fun x env => (evalT K b env).1 ++ after (eval K.erase b env) fun y _ =>
        binLeak op x y := by
  rw [evalT]; trace_eq []
@[src] theorem trace_cast (e : Expr) (t : IntTy) : (evalT K (.cast e t) env).1 = (evalT K e env).1 := by
  rw [evalT]; trace_eq []
@[src] theorem trace_from (t : IntTy) (e : Expr) : (evalT K (.from t e) env).1 = (evalT K e env).1 := by
  rw [evalT]; trace_eq []
@[src] theorem trace_field (e : Expr) (f : Id) : (evalT K (.field e f) env).1 = (evalT K e env).1 := by
  rw [evalT]; trace_eq []
@[src] theorem trace_index (e i : Expr) :
    (evalT K (.index e i) env).1 =
      (evalT K e env).1 ++ after (eval K.erase e env) fun _ env => (evalT K i env).1 ++ after (eval K.erase i env) fun n env =>
        after (ofUsize n env) fun n _ => [.index n] := by
  rw [evalT]; trace_eq []
@[src] theorem trace_slice (e lo hi : Expr) :
    (evalT K (.slice e lo hi) env).1 =
      (evalT K e env).1 ++ after (eval K.erase e env) fun _ env => (evalT K lo env).1 ++ after (eval K.erase lo env) fun a env =>
        after (ofUsize a env) fun a env => (evalT K hi env).1 ++ after (eval K.erase hi env) fun b env =>
          after (ofUsize b env) fun b _ => [.range a b] := by
  rw [evalT]; trace_eq []
@[src] theorem trace_sliceTo (e hi : Expr) :
    (evalT K (.sliceTo e hi) env).1 =
      (evalT K e env).1 ++ after (eval K.erase e env) fun _ env => (evalT K hi env).1 ++ after (eval K.erase hi env) fun b env =>
          after (ofUsize b env) fun b _ => [.range 0 b] := by
  rw [evalT]; trace_eq []
@[src] theorem trace_sliceFrom (e lo : Expr) :
    (evalT K (.sliceFrom e lo) env).1 =
      (evalT K e env).1 ++ after (eval K.erase e env) fun v env => (evalT K lo env).1 ++ after (eval K.erase lo env) fun a env =>
        after (ofUsize a env) fun a env => after (ofSeq v env) fun xs _ => [.range a xs.length] := by
  rw [evalT]; trace_eq []
@[src] theorem trace_range (lo hi : Expr) :
    (evalT K (.range lo hi) env).1 =
      (evalT K lo env).1 ++ after (eval K.erase lo env) fun _ env => (evalT K hi env).1 := by
  rw [evalT]; trace_eq []
@[src] theorem trace_ctor (c : Ctor) (es : List Expr) : (evalT K (.ctor c es) env).1 = (evalListT K es env).1 := by
  rw [evalT]; trace_eq []
@[src] theorem trace_call (f : Fn) (args : List Expr) :
    (evalT K (.call f args) env).1 =
      (evalArgsT K (K.sig f) args env).1 ++ after (evalArgs K.erase (K.sig f) args env) fun as env =>
        after (readArgs as env) fun vs _ => .call f :: (K.call f vs).1 := by
  rw [evalT]; trace_eq []
  rfl
@[src] theorem trace_prim (p : Prim) (args : List Expr) :
    (evalT K (.prim p args) env).1 =
      (evalListT K args env).1 ++ after (evalList K.erase args env) fun vs _ => [.sizes (vs.flatMap sizeOfVal)] := by
  rw [evalT]; trace_eq []
@[src] theorem trace_mutPrim (p : MutPrim) (x : Expr) (args : List Expr) :
    (evalT K (.mutPrim p x args) env).1 =
      (evalPlaceT K x env).1 ++ after (evalPlace K.erase x env) fun path env => after (readPath path env) fun v env =>
        (evalListT K args env).1 ++ after (evalList K.erase args env) fun vs _ => [.sizes ((v :: vs).flatMap sizeOfVal)] := by
  rw [evalT]; trace_eq []
/-- What is seen of a test. -/
def branchTr (v : Val) (a b : Trace) : Trace :=
  match v with
  | .bool c => .branch c :: if c then a else b
  | _ => []
@[src] theorem branchTr_bool (c : Bool) (a b : Trace) : branchTr (.bool c) a b = .branch c :: if c then a else b := rfl
@[src] theorem trace_ite (c a b : Expr) :
    (evalT K (.ite c a b) env).1 =
      (evalT K c env).1 ++ after (eval K.erase c env) fun v env => branchTr v (evalT K a env).1 (evalT K b env).1 := by
  rw [evalT]; trace_eq []
  congr 2; funext v env
  cases v <;> try rfl
  rename_i c
  cases c <;> rfl
/-- Statements and a last expression, in order. -/
def evalSeqT (K : CtxT) : List Expr → Expr → Env → Trace
  | [], e => fun env => (evalT K e env).1
  | s :: ss, e => fun env => (evalT K s env).1 ++ after (eval K.erase s env) fun _ => evalSeqT K ss e
@[src] theorem evalSeqT_nil (e : Expr) : evalSeqT K [] e env = (evalT K e env).1 := rfl
@[src] theorem evalSeqT_cons (s : Expr) (ss : List Expr) (e : Expr) :
    evalSeqT K (s :: ss) e env = (evalT K s env).1 ++ after (eval K.erase s env) fun _ => evalSeqT K ss e := rfl
theorem after_append {α : Type} (x : R (Ctl α × Env)) (k k' : α → Env → Trace) :
    after x k ++ after x k' = after x fun a env => k a env ++ k' a env := by
  rcases x with e | ⟨a | v | _, env'⟩ <;> rfl
theorem evalSeqT_eq (ss : List Expr) (e : Expr) (env : Env) :
    ((evalListT K ss >>= fun _ => evalT K e : ET Val) env).1 = evalSeqT K ss e env := by
  induction ss generalizing env with
  | nil => rw [evalListT]; rfl
  | cons s ss ih =>
    rw [evalSeqT_cons, evalListT]
    trace_eq []
    show (_ ++ _) ++ after (thenT (evalT K s env) _).2 _ = _
    rw [List.append_assoc]
    congr 1
    have hs := evalT_snd K s env
    rcases h : evalT K s env with ⟨t, r⟩
    rw [h] at hs
    obtain rfl : r = _ := hs
    rcases h' : eval K.erase s env with er | ⟨a | v | _, env'⟩
    · rfl
    · rw [h'] at h
      show (evalListT K ss env').1 ++ after (thenT (evalListT K ss env') _).2 _ = evalSeqT K ss e env'
      rw [← ih env', bindT_trace]
      congr 1
      rcases evalListT K ss env' with ⟨t', e' | ⟨a | v | _, env''⟩⟩ <;> rfl
    · rfl
    · rfl
@[src] theorem trace_block (ss : List Expr) (e : Expr) : (evalT K (.block ss e) env).1 = evalSeqT K ss e env := by
  rw [evalT, inScopeT_fst, evalSeqT_eq]
@[src] theorem trace_let (p : Pat) (e : Expr) : (evalT K (.let p e) env).1 = (evalT K e env).1 := by
  rw [evalT]; trace_eq []
@[src] theorem trace_assign (x e : Expr) :
    (evalT K (.assign x e) env).1 = (evalT K e env).1 ++ after (eval K.erase e env) fun _ env => (evalPlaceT K x env).1 := by
  rw [evalT]; trace_eq []
@[src] theorem trace_assignOp (op : BinOp) (x e : Expr) :
    (evalT K (.assignOp op x e) env).1 =
      (evalT K e env).1 ++ after (eval K.erase e env) fun v env => (evalPlaceT K x env).1 ++
        after (evalPlace K.erase x env) fun p env => after (readPath p env) fun w _ => binLeak op w v := by
  rw [evalT]; trace_eq []
@[src] theorem trace_return (e : Expr) : (evalT K (.return e) env).1 = (evalT K e env).1 := by
  rw [evalT]; trace_eq []
@[src] theorem trace_match (e : Expr) (ps : List Pat) (bodies : List Expr) :
    (evalT K (.match e ps bodies) env).1 =
      (evalT K e env).1 ++ after (eval K.erase e env) fun v env => (evalMatchT K v ps bodies env).1 := by
  rw [evalT]; trace_eq []
/-- What is seen of the choice of an arm. -/
def armTr (r : Option (List (Id × Val))) (a : Env → Trace) (b : Trace) (env : Env) : Trace :=
  match r with
  | some bs => .branch true :: a (bs ++ env)
  | none => .branch false :: b
@[src] theorem armTr_some (bs : List (Id × Val)) (a : Env → Trace) (b : Trace) :
    armTr (some bs) a b env = .branch true :: a (bs ++ env) := rfl
@[src] theorem armTr_none (a : Env → Trace) (b : Trace) : armTr none a b env = .branch false :: b := rfl
@[src] theorem trace_match_cons (v : Val) (p : Pat) (ps : List Pat) (e : Expr) (es : List Expr) :
    (evalMatchT K v (p :: ps) (e :: es) env).1 =
      armTr (matchPat p v) (fun env => (evalT K e env).1) (evalMatchT K v ps es env).1 env := by
  rw [evalMatchT]
  cases matchPat p v <;> rfl

@[src] theorem trace_place_var (x : Id) : (evalPlaceT K (.var x) env).1 = [] := by rw [evalPlaceT]; rfl
@[src] theorem trace_place_field (e : Expr) (f : Id) : (evalPlaceT K (.field e f) env).1 = (evalPlaceT K e env).1 := by
  rw [evalPlaceT]; trace_eq []
@[src] theorem trace_list_nil : (evalListT K [] env).1 = [] := by rw [evalListT]; rfl
@[src] theorem trace_list_cons (e : Expr) (es : List Expr) :
    (evalListT K (e :: es) env).1 = (evalT K e env).1 ++ after (eval K.erase e env) fun _ env => (evalListT K es env).1 := by
  rw [evalListT]; trace_eq []
@[src] theorem trace_args_nil : (evalArgsT K [] [] env).1 = [] := by rw [evalArgsT]; rfl
@[src] theorem trace_args_val (ms : List Mode) (e : Expr) (es : List Expr) :
    (evalArgsT K (.val :: ms) (e :: es) env).1 =
      (evalT K e env).1 ++ after (eval K.erase e env) fun _ env => (evalArgsT K ms es env).1 := by
  rw [evalArgsT]; trace_eq []
@[src] theorem trace_args_mutRef (ms : List Mode) (e : Expr) (es : List Expr) :
    (evalArgsT K (.mutRef :: ms) (e :: es) env).1 =
      (evalPlaceT K e env).1 ++ after (evalPlace K.erase e env) fun _ env => (evalArgsT K ms es env).1 := by
  rw [evalArgsT]; trace_eq []

/-- What is seen of the rounds of a loop. -/
def loopTr {α : Type} (seen : α → Env → Trace) (step : α → E Val) : List α → Env → Trace
  | [], _ => []
  | x :: xs, env => seen x env ++ after (nextIter (inScope (step x) env) fun env => .ok (.val .unit, env)) fun _ => loopTr seen step xs

theorem loopTr_cons {α : Type} (seen : α → Env → Trace) (step : α → E Val) (x : α) (xs : List α) (env : Env) :
    loopTr seen step (x :: xs) env =
      seen x env ++ after (nextIter (inScope (step x) env) fun env => .ok (.val .unit, env)) fun _ => loopTr seen step xs := rfl

theorem forLoopT_trace {α : Type} {step : α → ET Val} {step' : α → E Val} (h : ∀ a, Er (step a) (step' a)) (xs : List α) (env : Env) :
    (forLoopT step xs env).1 = loopTr (fun x env => (step x env).1) step' xs env := by
  induction xs generalizing env with
  | nil => rfl
  | cons x xs ih =>
    rw [forLoopT, bindT_trace, loopTr_cons]
    congr 1
    have : (absorbT (inScopeT (step x)) env).2 = nextIter (inScope (step' x) env) fun env => .ok (.val .unit, env) := by
      have h := (Er.absorb (Er.inScope (h x))) env
      rw [h]
      show (inScope (step' x) env >>= _) = (inScope (step' x) env >>= _)
      rcases inScope (step' x) env with e | ⟨a | v | _, env'⟩ <;> rfl
    rw [this]
    congr 1
    funext _ env
    exact ih env

@[src] theorem trace_for (p : Pat) (e body : Expr) :
    (evalT K (.for p e body) env).1 =
      (evalT K e env).1 ++ after (eval K.erase e env) fun v env => after (ofSeq v env) fun xs env =>
        .count xs.length :: loopTr (fun x env => after (bindPat p x env) fun _ env => (evalT K body env).1)
          (fun x => do let _ ← bindPat p x; eval K.erase body) xs env := by
  rw [evalT]; trace_eq []
  congr 2; funext v env; congr 1; funext xs env
  show Event.count xs.length :: _ = _
  congr 1
  rw [forLoopT_trace (step' := fun x => do let _ ← bindPat p x; eval K.erase body)]
  · simp only [bindT_trace, quiet_fst, quiet_snd, List.nil_append]
    rfl
  · exact fun a => .bind (.quiet _) fun _ => evalT_erase K body
/-- What is seen of one round of a loop over `place.iter_mut()`. -/
def mutTr (p : Path) (x : Id) (bs : List (Id × Val)) (seen : Env → Trace) (k : Nat) (env : Env) : Trace :=
  after (readPath (p.push (.idx k)) env) fun cur env => seen ((x, cur) :: bs ++ env)
theorem mutStepT_fst (p : Path) (x : Id) (bs : List (Id × Val)) (body : ET Val) (k : Nat) :
    (mutStepT p x bs body k env).1 = mutTr p x bs (fun env => (body env).1) k env := by
  rw [mutStepT, bindT_trace]
  rfl
@[src] theorem trace_forMut (x : Id) (place body : Expr) :
    (evalT K (.forMut x place body) env).1 =
      (evalPlaceT K place env).1 ++ after (evalPlace K.erase place env) fun p env => after (readPath p env) fun v env =>
        after (ofSeq v env) fun xs env => .count xs.length ::
          loopTr (mutTr p x [] fun env => (evalT K body env).1) (mutStep p x [] (eval K.erase body)) (List.range xs.length) env := by
  rw [evalT]; trace_eq []
  congr 2; funext p env; congr 1; funext v env; congr 1; funext xs env
  show Event.count xs.length :: _ = _
  congr 1
  rw [forLoopT_trace (step' := mutStep p x [] (eval K.erase body))]
  · simp only [mutStepT_fst]
    rfl
  · exact fun k => .mutStep p x [] (evalT_erase K body) k

@[src] theorem trace_str (x : String) : (evalT K (.str x) env).1 = [] := by rw [evalT]; rfl
@[src] theorem trace_decl (x : Id) : (evalT K (.decl x) env).1 = [] := by rw [evalT]; rfl
@[src] theorem trace_continue : (evalT K .continue env).1 = [] := by rw [evalT]; rfl
@[src] theorem trace_not (e : Expr) : (evalT K (.not e) env).1 = (evalT K e env).1 := by
  rw [evalT]; trace_eq []
@[src] theorem trace_andAlso (a b : Expr) :
    (evalT K (.andAlso a b) env).1 =
      (evalT K a env).1 ++ after (eval K.erase a env) fun v env => branchTr v (evalT K b env).1 [] := by
  rw [evalT]; trace_eq []
  congr 2; funext v env
  cases v <;> try rfl
  rename_i c
  cases c <;> rfl
@[src] theorem trace_array (es : List Expr) : (evalT K (.array es) env).1 = (evalListT K es env).1 := by
  rw [evalT]; trace_eq []
@[src] theorem trace_tup (es : List Expr) : (evalT K (.tup es) env).1 = (evalListT K es env).1 := by
  rw [evalT]; trace_eq []
@[src] theorem trace_struct (s : Struct) (fs : List Id) (es : List Expr) :
    (evalT K (.struct s fs es) env).1 = (evalListT K es env).1 := by
  rw [evalT]; trace_eq []
@[src] theorem trace_repeat (e n : Expr) :
    (evalT K (.repeat e n) env).1 =
      (evalT K e env).1 ++ after (eval K.erase e env) fun _ env => (evalT K n env).1 ++ after (eval K.erase n env) fun n env =>
        after (ofUsize n env) fun n _ => [.count n] := by
  rw [evalT]; trace_eq []
/-- What is seen of `?`. -/
def tryTr : Val → Trace
  | .enum .Ok [_] => [.branch true]
  | .enum .Err [_] => [.branch false]
  | _ => []
@[src] theorem trace_try (e : Expr) :
    (evalT K (.try e) env).1 = (evalT K e env).1 ++ after (eval K.erase e env) fun v _ => tryTr v := by
  rw [evalT]; trace_eq []
  congr 2; funext v env
  split <;> simp_all [tryTr] <;> rfl
@[src] theorem trace_appendFrom (x y : Expr) :
    (evalT K (.appendFrom x y) env).1 =
      (evalPlaceT K x env).1 ++ after (evalPlace K.erase x env) fun p env => (evalPlaceT K y env).1 ++
        after (evalPlace K.erase y env) fun q env => after (readPath p env) fun v env => after (readPath q env) fun w _ =>
          [.sizes ([v, w].flatMap sizeOfVal)] := by
  rw [evalT]; trace_eq []
@[src] theorem trace_place_index (e i : Expr) :
    (evalPlaceT K (.index e i) env).1 =
      (evalPlaceT K e env).1 ++ after (evalPlace K.erase e env) fun _ env => (evalT K i env).1 ++ after (eval K.erase i env) fun n env =>
        after (ofUsize n env) fun n _ => [.index n] := by
  rw [evalPlaceT]; trace_eq []
@[src] theorem trace_place_slice (e lo hi : Expr) :
    (evalPlaceT K (.slice e lo hi) env).1 =
      (evalPlaceT K e env).1 ++ after (evalPlace K.erase e env) fun _ env => (evalT K lo env).1 ++ after (eval K.erase lo env) fun a env =>
        after (ofUsize a env) fun a env => (evalT K hi env).1 ++ after (eval K.erase hi env) fun b env =>
          after (ofUsize b env) fun b _ => [.range a b] := by
  rw [evalPlaceT]; trace_eq []

/-- What is seen of the elements of `iter().map(..)`. -/
def mapTr (seen : Val → Env → Trace) (step : Val → E Val) : List Val → Env → Trace
  | [], _ => []
  | x :: xs, env => seen x env ++ after (inScope (step x) env) fun _ => mapTr seen step xs

theorem mapLoopT_trace {step : Val → ET Val} {step' : Val → E Val} (h : ∀ a, Er (step a) (step' a)) (xs : List Val) (env : Env) :
    (mapLoopT step xs env).1 = mapTr (fun x env => (step x env).1) step' xs env := by
  induction xs generalizing env with
  | nil => rfl
  | cons x xs ih =>
    rw [mapLoopT, bindT_trace, mapTr, (Er.inScope (h x)) env]
    trace_eq []
    congr 2
    funext y env
    exact ih env

/-- What is seen of the body of a closure. -/
def seenOfPat (K : CtxT) (p : Pat) (body : Expr) (x : Val) : Env → Trace := fun env =>
  after (bindPat p x env) fun _ env => (evalT K body env).1
@[src] theorem seenOfPat_app (p : Pat) (body : Expr) (x : Val) :
    seenOfPat K p body x env = after (bindPat p x env) fun _ env => (evalT K body env).1 := rfl

@[src] theorem trace_map (e : Expr) (p : Pat) (body : Expr) :
    (evalT K (.map e p body) env).1 =
      (evalT K e env).1 ++ after (eval K.erase e env) fun v env => after (ofSeq v env) fun xs env =>
        .count xs.length :: mapTr (seenOfPat K p body) (fun x => do let _ ← bindPat p x; eval K.erase body) xs env := by
  rw [evalT]; trace_eq []
  congr 2; funext v env; congr 1; funext xs env
  show Event.count xs.length :: _ = _
  congr 1
  rw [mapLoopT_trace (step' := fun x => do let _ ← bindPat p x; eval K.erase body)]
  · simp only [bindT_trace, quiet_fst, quiet_snd, List.nil_append]
    rfl
  · exact fun a => .bind (.quiet _) fun _ => evalT_erase K body

/-- What is seen of the rounds of a `while` loop. -/
def whileTr (seenC : Env → Trace) (c : E Val) (seen : Env → Trace) (body : E Val) : Nat → Env → Trace
  | 0, _ => []
  | n + 1, env => seenC env ++ after (c env) fun v env =>
      branchTr v (seen env ++ after (nextIter (inScope body env) fun env => .ok (.val .unit, env)) fun _ =>
        whileTr seenC c seen body n) []

theorem absorb_snd {step : ET Val} {step' : E Val} (h : Er step step') (env : Env) :
    (absorbT (inScopeT step) env).2 = nextIter (inScope step' env) fun env => .ok (.val .unit, env) := by
  rw [(Er.absorb (Er.inScope h)) env]
  show (inScope step' env >>= _) = (inScope step' env >>= _)
  rcases inScope step' env with e | ⟨a | v | _, env'⟩ <;> rfl

theorem whileLoopT_trace {c body : ET Val} {c' body' : E Val} (hc : Er c c') (hb : Er body body') (n : Nat) (env : Env) :
    (whileLoopT c body n env).1 = whileTr (fun env => (c env).1) c' (fun env => (body env).1) body' n env := by
  induction n generalizing env with
  | zero => rfl
  | succ n ih =>
    rw [whileLoopT, bindT_trace, whileTr, hc env]
    congr 2
    funext v env
    cases v <;> try rfl
    rename_i b
    cases b
    · rfl
    · show Event.branch true :: ((absorbT (inScopeT body) >>= fun _ => whileLoopT c body n) env).1 = _
      rw [bindT_trace, absorb_snd hb]
      show _ = Event.branch true :: (_ ++ _)
      congr 2
      congr 1
      funext _ env
      exact ih env

/-- What is seen of an expression, looked at only when the environment is known. -/
def seenOf (K : CtxT) (e : Expr) : Env → Trace := fun env => (evalT K e env).1
@[src] theorem seenOf_app (e : Expr) : seenOf K e env = (evalT K e env).1 := rfl

@[src] theorem trace_while (c body : Expr) :
    (evalT K (.while c body) env).1 =
      whileTr (seenOf K c) (eval K.erase c) (seenOf K body) (eval K.erase body) K.fuel env := by
  rw [evalT, whileLoopT_trace (evalT_erase K c) (evalT_erase K body)]
  rfl

end

attribute [src] tryTr

/-- A `while` loop that counts from `a` to `a + n`, by its environments. -/
theorem whileLoop_count {c body : E Val} {F : Nat} (a n : Nat) (env : Nat → Env) (hF : n < F)
    (hc : ∀ i, a ≤ i → i ≤ a + n → c (env i) = .ok (.val (.bool (decide (i < a + n))), env i))
    (hb : ∀ i, a ≤ i → i < a + n → ∀ k, nextIter (inScope body (env i)) k = k (env (i + 1))) :
    whileLoop c body F (env a) = .ok (.val .unit, env (a + n)) := by
  rw [whileLoop_model (s := ()) a n (fun i _ => env i) (fun _ _ => .ok ()) hF (fun i h1 h2 _ => hc i h1 h2)
    (fun i h1 h2 _ k => by rw [hb i h1 h2]; rfl)]
  rw [show ∀ xs : List Nat, forEach xs () (fun _ _ => (.ok () : M Unit)) = .ok () from fun xs => by
    induction xs with
    | nil => rfl
    | cons x xs ih => exact ih]
  rfl

/-- A `while` loop that counts from `a` to `a + n`. -/
theorem whileTr_count {seenC seen : Env → Trace} {c body : E Val} {F : Nat} (a n : Nat) (env : Nat → Env) (tc tb : Nat → Trace)
    (hF : n < F)
    (hc : ∀ i, a ≤ i → i ≤ a + n → c (env i) = .ok (.val (.bool (decide (i < a + n))), env i))
    (hb : ∀ i, a ≤ i → i < a + n → ∀ k, nextIter (inScope body (env i)) k = k (env (i + 1)))
    (hsc : ∀ i, a ≤ i → i ≤ a + n → seenC (env i) = tc i)
    (hsb : ∀ i, a ≤ i → i < a + n → seen (env i) = tb i) :
    whileTr seenC c seen body F (env a) =
      (List.range' a n).flatMap (fun i => tc i ++ .branch true :: tb i) ++ (tc (a + n) ++ [.branch false]) := by
  induction n generalizing a F with
  | zero =>
    obtain ⟨F, rfl⟩ := Nat.exists_eq_add_of_lt hF
    rw [whileTr, hc a (Nat.le_refl _) (Nat.le_refl _), after_val, hsc a (Nat.le_refl _) (Nat.le_refl _)]
    simp [branchTr]
  | succ n ih =>
    obtain ⟨F, rfl⟩ := Nat.exists_eq_add_of_lt (Nat.lt_of_le_of_lt (Nat.zero_le _) hF)
    rw [whileTr, hc a (Nat.le_refl _) (by omega), after_val, hsc a (Nat.le_refl _) (by omega), hsb a (Nat.le_refl _) (by omega),
      hb a (Nat.le_refl _) (by omega), after_val, ih (F := 0 + F) (a + 1) (by omega)
        (fun i h1 h2 => by rw [hc i (by omega) (by omega), show a + 1 + n = a + (n + 1) by omega])
        (fun i h1 h2 => hb i (by omega) (by omega)) (fun i h1 h2 => hsc i (by omega) (by omega))
        (fun i h1 h2 => hsb i (by omega) (by omega)), List.range'_succ, show a + 1 + n = a + (n + 1) by omega]
    simp [branchTr]

attribute [src] binLeak sizeOfVal mutTr List.flatMap_cons List.flatMap_nil

/-- A loop over `xs.iter_mut()` that replaces `x` by `f x`. -/
theorem loopTr_iterMap {α : Type} {seen : Nat → Env → Trace} {step : Nat → E Val} {n : Nat} {xs : List α} (env : List α → Env)
    (f : α → α) (t : α → Trace) (hn : n = xs.length)
    (h : ∀ i, i < n → ∀ s k, nextIter (inScope (step i) (env s)) k =
      up (idx s i) >>= fun x => up (upd s i (f x)) >>= fun s' => k (env s'))
    (hs : ∀ i s x, idx s i = .ok x → seen i (env s) = t x) :
    loopTr seen step (List.range n) (env xs) = xs.flatMap t := by
  subst hn
  rw [List.range_eq_range']
  have : ∀ (pre ys : List α), pre.length + ys.length = xs.length →
      loopTr seen step (List.range' pre.length ys.length) (env (pre ++ ys)) = ys.flatMap t := by
    intro pre ys
    induction ys generalizing pre with
    | nil => intro _; rfl
    | cons y ys ih =>
      intro hl
      have h1 : idx (pre ++ y :: ys) pre.length = .ok y := by simp [idx]
      have h2 : upd (pre ++ y :: ys) pre.length (f y) = .ok ((pre ++ [f y]) ++ ys) := by simp [upd]
      rw [List.length_cons, List.range'_succ, loopTr_cons, h _ (by simp at hl; omega), hs _ _ _ h1, h1, up_ok, R.ok_bind, h2, up_ok,
        R.ok_bind, after_val, List.flatMap_cons]
      congr 1
      have := ih (pre ++ [f y]) (by simp at hl ⊢; omega)
      rwa [List.length_append] at this
  exact this [] xs (by simp)

/-- A `for` loop with an invariant: where it ends, and what is seen of it. -/
theorem loop_inv {α : Type} {seen : α → Env → Trace} {step : α → E Val} (xs : List α) (P : Nat → Env → Prop) (t : Nat → Trace)
    (h : ∀ i (hi : i < xs.length) env, P i env →
      seen xs[i] env = t i ∧ ∃ env', P (i + 1) env' ∧ ∀ k, nextIter (inScope (step xs[i]) env) k = k env')
    (env : Env) (h0 : P 0 env) :
    ∃ env', P xs.length env' ∧ forLoop step xs env = .ok (.val .unit, env') ∧
      loopTr seen step xs env = (List.range xs.length).flatMap t := by
  have : ∀ n (ys : List α), n + ys.length = xs.length → ys = xs.drop n → ∀ env, P n env →
      ∃ env', P xs.length env' ∧ forLoop step ys env = .ok (.val .unit, env') ∧
        loopTr seen step ys env = (List.range' n ys.length).flatMap t := by
    intro n ys
    induction ys generalizing n with
    | nil => intro hl _ env he; exact ⟨env, by simpa [← hl] using he, rfl, rfl⟩
    | cons y ys ih =>
      intro hl hy env he
      have hn : n < xs.length := by simp at hl; omega
      have h1 : xs[n] = y := by
        have := congrArg List.head? hy
        simpa [List.head?_drop, hn] using this.symm
      obtain ⟨h2, env1, h3, h4⟩ := h n hn env he
      rw [h1] at h2 h4
      obtain ⟨env', h5, h6, h7⟩ := ih (n + 1) (by simp at hl; omega)
        (by rw [← List.tail_drop, ← hy]; rfl) env1 h3
      refine ⟨env', h5, ?_, ?_⟩
      · rw [forLoop_cons, h4, h6]
      · rw [loopTr_cons, h2, h4, after_val, h7, List.length_cons, List.range'_succ, List.flatMap_cons]
  have := this 0 xs (by simp) rfl env h0
  rwa [← List.range_eq_range'] at this

/-- What is seen of a `map` whose closure leaves the environment alone. -/
theorem mapTr_eq {γ : Type} {seen : Val → Env → Trace} {step : Val → E Val} {env : Env} (enc : γ → Val) (t : γ → Trace) (xs : List γ)
    (hs : ∀ x ∈ xs, seen (enc x) env = t x) (h : ∀ x ∈ xs, ∃ v, inScope (step (enc x)) env = .ok (.val v, env)) :
    mapTr seen step (xs.map enc) env = xs.flatMap t := by
  induction xs with
  | nil => rfl
  | cons x xs ih =>
    obtain ⟨v, hv⟩ := h x (by simp)
    rw [List.map_cons, mapTr, hs x (by simp), hv, after_val, ih (fun y hy => hs y (by simp [hy])) (fun y hy => h y (by simp [hy]))]
    rfl

end Verif.Source
