import Verif.Source.Leak

/-!
What a panic leaves behind. A panic can be caught (`std::panic::catch_unwind`, or another thread joining the one that panicked),
and then the objects and buffers the function was changing are still there, half changed.

This is the interpreter of `Semantics.lean` once more; here the variables are there after a panic too, and the final values of
the `&mut` parameters of a call are copied back in every case. `evalU_erase` and `callU_erase` show that the outcomes are the
same. Every library function of the crate either does all of its work or panics before it changes anything, so that a panic in one
leaves its place as it was.
-/

set_option linter.constructorNameAsVariable false

namespace Verif.Source
open Verif

/-- Evaluation: an outcome, and the variables at that point, panic or not. -/
def EU (α : Type) := Env → R (Ctl α) × Env

/-- The view of `Semantics.lean`, which has no variables after a panic. -/
def shown {α σ : Type} (x : R α × σ) : R (α × σ) := x.1 >>= fun a => .ok (a, x.2)

/-- What follows an outcome. -/
def thenU {α β : Type} (x : R (Ctl α) × Env) (f : α → EU β) : R (Ctl β) × Env :=
  match x with
  | (.error e, env) => (.error e, env)
  | (.ok (.val a), env) => f a env
  | (.ok (.ret v), env) => (.ok (.ret v), env)
  | (.ok .cont, env) => (.ok .cont, env)

instance : Monad EU where
  pure a := fun env => (.ok (.val a), env)
  bind x f := fun env => thenU (x env) f

/-- A step that changes nothing when it panics. -/
def hold {α : Type} (x : E α) : EU α := fun env =>
  match x env with
  | .ok (c, env') => (.ok c, env')
  | .error e => (.error e, env)

/-- The end of a scope: its variables go, after a panic too. -/
def inScopeU {α : Type} (x : EU α) : EU α := fun env =>
  ((x env).1, (x env).2.drop ((x env).2.length - env.length))

def branchU (v : Val) (a b : EU Val) : EU Val :=
  match v with
  | .bool c => if c then a else b
  | _ => hold stuck

def absorbU (x : EU Val) : EU Val := fun env =>
  ((x env).1 >>= fun c =>
    match c with
    | .ret v => .ok (.ret v)
    | .val _ | .cont => .ok (.val .unit), (x env).2)

def whileLoopU (c body : EU Val) : Nat → EU Val
  | 0 => hold fun _ => .error .fuel
  | n + 1 => do
    let v ← c
    branchU v (do let _ ← absorbU (inScopeU body); whileLoopU c body n) (pure .unit)

def forLoopU {α : Type} (step : α → EU Val) : List α → EU Val
  | [] => pure .unit
  | x :: xs => do
    let _ ← absorbU (inScopeU (step x))
    forLoopU step xs

/-- An outcome followed by a change of the variables that is made in any case. -/
def finally_ {α : Type} (r : R α) (w : R (Ctl Val × Env)) (env : Env) : R α × Env :=
  match w with
  | .ok (_, env') => (r, env')
  | .error e => (r >>= fun _ => .error e, env)

/-- Runs the body of a loop over `place.iter_mut()` on element `cur`. The element lies in the place: whatever the body did to it
has been done to the place, after a panic too. -/
def elemU (p : Path) (x : Id) (bs : List (Id × Val)) (body : EU Val) (k : Nat) (cur : Val) : EU Val := fun env =>
  let r := body ((x, cur) :: bs ++ env)
  let rest := r.2.drop (r.2.length - env.length)
  finally_ r.1 (getVar x r.2 >>= fun new => writePath (p.push (.idx k)) new rest) rest

def mutStepU (p : Path) (x : Id) (bs : List (Id × Val)) (body : EU Val) (k : Nat) : EU Val := do
  let cur ← hold (readPath (p.push (.idx k)))
  elemU p x bs body k cur

def mapLoopU (step : Val → EU Val) : List Val → EU (List Val)
  | [] => pure []
  | x :: xs => do
    let y ← inScopeU (step x)
    let ys ← mapLoopU step xs
    return y :: ys

/-- `Ctx`, with calls that give the final values of the `&mut` parameters in every case. -/
structure CtxU where
  T : Target
  fuel : Nat
  const : Const → R Val
  sig : Fn → List Mode
  call : Fn → List Val → R Val × List Val

/-- The context in which nothing is left after a panic. -/
def CtxU.erase (K : CtxU) : Ctx where
  T := K.T
  fuel := K.fuel
  const := K.const
  sig := K.sig
  call f vs := shown (K.call f vs)

/-- A call; the final values of the `&mut` parameters are copied back in any case. -/
def callStepU (K : CtxU) (f : Fn) (vs : List Val) (as : List Arg) : EU Val := fun env =>
  let r := K.call f vs
  finally_ (r.1 >>= fun v => .ok (.val v)) (writeArgs as r.2 env) env

mutual

def evalU (K : CtxU) : Expr → EU Val
  | .int t n => pure (mkInt t n)
  | .str s => pure (.str s)
  | .unit => pure .unit
  | .var x => hold (readPath ⟨x, []⟩)
  | .const c => hold (lift (K.const c))
  | .not e => do
    let v ← evalU K e
    hold (lift (evalNot v))
  | .bin op a b => do
    let x ← evalU K a
    let y ← evalU K b
    hold (lift (evalBin K.T op x y))
  | .andAlso a b => do
    let v ← evalU K a
    branchU v (evalU K b) (pure (.bool false))
  | .cast e t => do
    let v ← evalU K e
    hold (lift (evalCast K.T t v))
  | .from t e => do
    let v ← evalU K e
    hold (lift (evalFrom t v))
  | .field e f => do
    let v ← evalU K e
    hold (lift (getAcc v (.fld f)))
  | .index e i => do
    let v ← evalU K e
    let n ← evalU K i
    let n ← hold (ofUsize n)
    hold (lift (getAcc v (.idx n)))
  | .slice e lo hi => do
    let v ← evalU K e
    let a ← evalU K lo
    let a ← hold (ofUsize a)
    let b ← evalU K hi
    let b ← hold (ofUsize b)
    hold (lift (getAcc v (.rng a b)))
  | .sliceTo e hi => do
    let v ← evalU K e
    let b ← evalU K hi
    let b ← hold (ofUsize b)
    hold (lift (getAcc v (.rng 0 b)))
  | .sliceFrom e lo => do
    let v ← evalU K e
    let a ← evalU K lo
    let a ← hold (ofUsize a)
    let xs ← hold (ofSeq v)
    hold (lift (getAcc v (.rng a xs.length)))
  | .range lo hi => do
    let a ← evalU K lo
    let b ← evalU K hi
    hold (lift (evalRange false a b))
  | .rangeIncl lo hi => do
    let a ← evalU K lo
    let b ← evalU K hi
    hold (lift (evalRange true a b))
  | .array es => do
    let vs ← evalListU K es
    return .seq vs
  | .repeat e n => do
    let v ← evalU K e
    let n ← evalU K n
    let n ← hold (ofUsize n)
    return .seq (List.replicate n v)
  | .tup es => do
    let vs ← evalListU K es
    return .tup vs
  | .struct s fs es => do
    let vs ← evalListU K es
    return .struct s (fs.zip vs)
  | .ctor c es => do
    let vs ← evalListU K es
    return .enum c vs
  | .call f args => do
    let as ← evalArgsU K (K.sig f) args
    let vs ← hold (readArgs as)
    callStepU K f vs as
  | .prim p args => do
    let vs ← evalListU K args
    hold (lift (evalPrim K.T p vs))
  | .mutPrim p x args => do
    let path ← evalPlaceU K x
    let v ← hold (readPath path)
    let vs ← evalListU K args
    let r ← hold (lift (evalMutPrim p v vs))
    let _ ← hold (writePath path r.1)
    return r.2
  | .appendFrom x y => do
    let p ← evalPlaceU K x
    let q ← evalPlaceU K y
    let v ← hold (readPath p)
    let w ← hold (readPath q)
    let r ← hold (lift (evalMutPrim .append v [w]))
    let _ ← hold (writePath p r.1)
    let _ ← hold (writePath q (.seq []))
    return r.2
  | .map e p body => do
    let v ← evalU K e
    let xs ← hold (ofSeq v)
    let ys ← mapLoopU (fun x => do let _ ← hold (bindPat p x); evalU K body) xs
    return .seq ys
  | .ite c a b => do
    let v ← evalU K c
    branchU v (evalU K a) (evalU K b)
  | .match e ps bodies => do
    let v ← evalU K e
    evalMatchU K v ps bodies
  | .block ss e => inScopeU do
    let _ ← evalListU K ss
    evalU K e
  | .let p e => do
    let v ← evalU K e
    hold (bindPat p v)
  | .decl x => hold (push [(x, .unit)])
  | .assign x e => do
    let v ← evalU K e
    let p ← evalPlaceU K x
    hold (writePath p v)
  | .assignOp op x e => do
    let v ← evalU K e
    let p ← evalPlaceU K x
    let w ← hold (readPath p)
    let r ← hold (lift (evalBin K.T op w v))
    hold (writePath p r)
  | .return e => do
    let v ← evalU K e
    hold fun env => .ok (.ret v, env)
  | .continue => hold fun env => .ok (.cont, env)
  | .try e => do
    let v ← evalU K e
    match v with
    | .enum .Ok [w] => pure w
    | .enum .Err [w] => hold fun env => .ok (.ret (.enum .Err [w]), env)
    | _ => hold stuck
  | .while c body => whileLoopU (evalU K c) (evalU K body) K.fuel
  | .for p e body => do
    let v ← evalU K e
    let xs ← hold (ofSeq v)
    forLoopU (fun x => do let _ ← hold (bindPat p x); evalU K body) xs
  | .forMut x place body => do
    let p ← evalPlaceU K place
    let v ← hold (readPath p)
    let xs ← hold (ofSeq v)
    forLoopU (mutStepU p x [] (evalU K body)) (List.range xs.length)
  | .forMutEnum i x place body => do
    let p ← evalPlaceU K place
    let v ← hold (readPath p)
    let xs ← hold (ofSeq v)
    forLoopU (fun k => mutStepU p x [(i, .usize k)] (evalU K body) k) (List.range xs.length)
  | .forMutZip x pat place e body => do
    let p ← evalPlaceU K place
    let v ← hold (readPath p)
    let xs ← hold (ofSeq v)
    let w ← evalU K e
    let ys ← hold (ofSeq w)
    forLoopU (fun ky =>
        match matchPat pat ky.2 with
        | some bs => mutStepU p x bs (evalU K body) ky.1
        | none => hold stuck)
      ((List.range xs.length).zip ys)

def evalPlaceU (K : CtxU) : Expr → EU Path
  | .var x => pure ⟨x, []⟩
  | .field e f => do
    let p ← evalPlaceU K e
    return p.push (.fld f)
  | .index e i => do
    let p ← evalPlaceU K e
    let n ← evalU K i
    let n ← hold (ofUsize n)
    return p.push (.idx n)
  | .slice e lo hi => do
    let p ← evalPlaceU K e
    let a ← evalU K lo
    let a ← hold (ofUsize a)
    let b ← evalU K hi
    let b ← hold (ofUsize b)
    return p.push (.rng a b)
  | .sliceTo e hi => do
    let p ← evalPlaceU K e
    let b ← evalU K hi
    let b ← hold (ofUsize b)
    return p.push (.rng 0 b)
  | .sliceFrom e lo => do
    let p ← evalPlaceU K e
    let a ← evalU K lo
    let a ← hold (ofUsize a)
    let v ← hold (readPath p)
    let xs ← hold (ofSeq v)
    return p.push (.rng a xs.length)
  | _ => hold stuck

def evalListU (K : CtxU) : List Expr → EU (List Val)
  | [] => pure []
  | e :: es => do
    let v ← evalU K e
    let vs ← evalListU K es
    return v :: vs

def evalArgsU (K : CtxU) : List Mode → List Expr → EU (List Arg)
  | [], [] => pure []
  | .val :: ms, e :: es => do
    let v ← evalU K e
    let as ← evalArgsU K ms es
    return .val v :: as
  | .mutRef :: ms, e :: es => do
    let p ← evalPlaceU K e
    let as ← evalArgsU K ms es
    return .place p :: as
  | _, _ => hold stuck

def evalMatchU (K : CtxU) (v : Val) : List Pat → List Expr → EU Val
  | p :: ps, e :: es =>
    match matchPat p v with
    | some bs => inScopeU do
      let _ ← hold (push bs)
      evalU K e
    | none => evalMatchU K v ps es
  | _, _ => hold stuck

end

/-- What a function body that ends this way gives. -/
def result (r : R (Ctl Val)) : R Val := r >>= fun c =>
  match c with
  | .val v => .ok v
  | .ret v => .ok v
  | .cont => .error .stuck

/-- Runs a function body on arguments. -/
def runBodyU (K : CtxU) (d : FnDef) (args : List Val) : R Val × List Val :=
  let r := evalU K d.body ((d.params.map (·.1)).zip args)
  match (d.params.filter (·.2 = .mutRef)).mapM fun p => getVar p.1 r.2 with
  | .ok outs => (result r.1, outs)
  | .error e => (r.1 >>= fun _ => .error e, [])

/-- A call of function `f` of the program `P` on the target `T`: the outcome, and the final values of the `&mut` parameters. -/
def callU (T : Target) (P : Program) (fuel : Nat) : Nat → Fn → List Val → R Val × List Val
  | 0, _, _ => (.error .fuel, [])
  | depth + 1, f, args =>
    runBodyU { T := T, fuel := fuel, const := constVal T P, sig := fun f => (P.fn f).params.map (·.2),
               call := callU T P fuel depth } (P.fn f) args

/-! ### The outcomes are those of `Semantics.lean` -/

/-- The same outcomes. -/
def Eu {α : Type} (x : EU α) (y : E α) : Prop := ∀ env, shown (x env) = y env

namespace Eu
variable {α β : Type}

theorem pure (a : α) : Eu (Pure.pure a) (Pure.pure a) := fun _ => rfl

theorem hold (x : E α) : Eu (Source.hold x) x := by
  intro env
  unfold Source.hold
  rcases x env with e | ⟨c, env'⟩ <;> rfl

theorem bind {x : EU α} {y : E α} {f : α → EU β} {g : α → E β} (h : Eu x y) (hf : ∀ a, Eu (f a) (g a)) :
    Eu (x >>= f) (y >>= g) := by
  intro env
  show shown (thenU (x env) f) = (y env >>= fun (c, env') =>
      match c with
      | .val a => g a env'
      | .ret v => .ok (.ret v, env')
      | .cont => .ok (.cont, env'))
  rw [← h env]
  rcases x env with ⟨e | ⟨a | v | _⟩, env'⟩
  · rfl
  · exact hf a env'
  · rfl
  · rfl

theorem inScope {x : EU α} {y : E α} (h : Eu x y) : Eu (inScopeU x) (Source.inScope y) := by
  intro env
  show _ = (y env >>= _)
  rw [← h env]
  unfold inScopeU
  rcases x env with ⟨e | ⟨a | v | _⟩, env'⟩ <;> rfl

theorem branch (v : Val) {a b : EU Val} {a' b' : E Val} (ha : Eu a a') (hb : Eu b b') : Eu (branchU v a b) (Source.branch v a' b') := by
  cases v <;> try exact hold _
  rename_i c
  cases c
  · exact hb
  · exact ha

theorem absorb {x : EU Val} {y : E Val} (h : Eu x y) : Eu (absorbU x) (Source.absorb y) := by
  intro env
  show _ = (y env >>= _)
  rw [← h env]
  unfold absorbU
  rcases x env with ⟨e | ⟨a | v | _⟩, env'⟩ <;> rfl

theorem whileLoop {c body : EU Val} {c' body' : E Val} (hc : Eu c c') (hb : Eu body body') (n : Nat) :
    Eu (whileLoopU c body n) (Source.whileLoop c' body' n) := by
  induction n with
  | zero => exact fun _ => rfl
  | succ n ih =>
    rw [Er.whileLoop_eq]
    exact bind hc fun v => branch v (bind (absorb (inScope hb)) fun _ => ih) (pure _)

theorem forLoop {step : α → EU Val} {step' : α → E Val} (h : ∀ a, Eu (step a) (step' a)) (xs : List α) :
    Eu (forLoopU step xs) (Source.forLoop step' xs) := by
  induction xs with
  | nil => exact fun _ => rfl
  | cons x xs ih =>
    rw [Er.forLoop_eq]
    exact bind (absorb (inScope (h x))) fun _ => ih

theorem readPath_val (p : Path) (env : Env) :
    (∃ w, readPath p env = .ok (.val w, env)) ∨ ∃ e, readPath p env = .error e := by
  unfold readPath
  rcases getVar p.root env with e | v
  · exact .inr ⟨e, rfl⟩
  · show (∃ v', (getAccs v p.accs >>= _) = _) ∨ ∃ e, (getAccs v p.accs >>= _) = _
    rcases getAccs v p.accs with e | w
    · exact .inr ⟨e, rfl⟩
    · exact .inl ⟨w, rfl⟩

theorem mutStep (p : Path) (x : Id) (bs : List (Id × Val)) {body : EU Val} {body' : E Val} (h : Eu body body') (k : Nat) :
    Eu (mutStepU p x bs body k) (Source.mutStep p x bs body' k) := by
  intro env
  show shown (thenU (Source.hold (readPath (p.push (.idx k))) env) _) = (readPath (p.push (.idx k)) env >>= _)
  unfold Source.hold
  rcases readPath_val (p.push (.idx k)) env with ⟨w, hw⟩ | ⟨e, hw⟩ <;> rw [hw]
  · show shown (elemU p x bs body k w env) = (body' ((x, w) :: bs ++ env) >>= _)
    rw [← h]
    unfold elemU
    rcases body ((x, w) :: bs ++ env) with ⟨e | c, env1⟩
    · simp only [finally_]
      split <;> rfl
    · show _ = (getVar x env1 >>= _)
      simp only [finally_]
      rcases getVar x env1 with e | new
      · rfl
      · show shown (match writePath (p.push (.idx k)) new (env1.drop (env1.length - env.length)) with
          | .ok (_, env') => (.ok c, env') | .error e => (_, _)) = (writePath _ _ _ >>= _)
        rcases writePath (p.push (.idx k)) new (env1.drop (env1.length - env.length)) with e | ⟨c', env2⟩ <;> rfl
  · rfl

theorem mapLoop {step : Val → EU Val} {step' : Val → E Val} (h : ∀ a, Eu (step a) (step' a)) (xs : List Val) :
    Eu (mapLoopU step xs) (Source.mapLoop step' xs) := by
  induction xs with
  | nil => exact pure _
  | cons x xs ih => exact bind (inScope (h x)) fun y => bind ih fun ys => pure _

theorem writePath_val (p : Path) (w : Val) (env : Env) :
    (∃ v env', writePath p w env = .ok (.val v, env')) ∨ ∃ e, writePath p w env = .error e := by
  unfold writePath
  rcases getVar p.root env with e | v
  · exact .inr ⟨e, rfl⟩
  · show (∃ v' env', (setAccs v p.accs w >>= _) = _) ∨ ∃ e, (setAccs v p.accs w >>= _) = _
    rcases setAccs v p.accs w with e | v'
    · exact .inr ⟨e, rfl⟩
    · show (∃ v env', (setVar p.root v' env >>= _) = _) ∨ ∃ e, (setVar p.root v' env >>= _) = _
      rcases setVar p.root v' env with e | env'
      · exact .inr ⟨e, rfl⟩
      · exact .inl ⟨.unit, env', rfl⟩

theorem writeArgs_val (as : List Arg) (outs : List Val) (env : Env) :
    (∃ v env', writeArgs as outs env = .ok (.val v, env')) ∨ ∃ e, writeArgs as outs env = .error e := by
  induction as generalizing outs env with
  | nil =>
    cases outs with
    | nil => exact .inl ⟨.unit, env, rfl⟩
    | cons o os => exact .inr ⟨.stuck, rfl⟩
  | cons a as ih =>
    cases a with
    | val v => exact ih outs env
    | place p =>
      cases outs with
      | nil => exact .inr ⟨.stuck, rfl⟩
      | cons o os =>
        show (∃ v env', (writePath p o >>= fun _ => writeArgs as os) env = _) ∨ ∃ e, (writePath p o >>= fun _ => writeArgs as os) env = _
        rcases writePath_val p o env with ⟨v, env', h⟩ | ⟨e, h⟩
        · have : (writePath p o >>= fun _ => writeArgs as os) env = writeArgs as os env' := by
            show (writePath p o env >>= _) = _
            rw [h]; rfl
          rw [this]
          exact ih os env'
        · refine .inr ⟨e, ?_⟩
          show (writePath p o env >>= _) = _
          rw [h]; rfl

theorem callStep (K : CtxU) (f : Fn) (vs : List Val) (as : List Arg) :
    Eu (callStepU K f vs as) (do
      let (v, outs) ← lift (K.erase.call f vs)
      let _ ← writeArgs as outs
      return v) := by
  intro env
  unfold callStepU
  simp only [CtxU.erase]
  rcases K.call f vs with ⟨e | v, outs⟩
  · dsimp only [finally_]
    rcases writeArgs as outs env with e' | ⟨c, env'⟩ <;> rfl
  · show _ = (writeArgs as outs env >>= _)
    dsimp only [finally_]
    rcases writeArgs_val as outs env with ⟨u, env', h⟩ | ⟨e, h⟩ <;> rw [h] <;> rfl

end Eu

/-- One step of a proof of `Eu`. -/
macro "eu_step" : tactic => `(tactic| first
  | exact Eu.pure _
  | exact Eu.hold _
  | exact Eu.callStep _ _ _ _
  | refine Eu.bind ?_ fun _ => ?_
  | refine Eu.inScope ?_
  | refine Eu.branch _ ?_ ?_)

mutual

theorem evalU_erase (K : CtxU) : ∀ e, Eu (evalU K e) (eval K.erase e)
  | .int t n => by repeat eu_step
  | .str s => by repeat eu_step
  | .unit => by repeat eu_step
  | .var x => by repeat eu_step
  | .const c => by repeat eu_step
  | .not e => .bind (evalU_erase K e) fun _ => by repeat eu_step
  | .bin op a b => .bind (evalU_erase K a) fun _ => .bind (evalU_erase K b) fun _ => by repeat eu_step
  | .andAlso a b => .bind (evalU_erase K a) fun _ => .branch _ (evalU_erase K b) (.pure _)
  | .cast e t => .bind (evalU_erase K e) fun _ => by repeat eu_step
  | .from t e => .bind (evalU_erase K e) fun _ => by repeat eu_step
  | .field e f => .bind (evalU_erase K e) fun _ => by repeat eu_step
  | .index e i => .bind (evalU_erase K e) fun _ => .bind (evalU_erase K i) fun _ => by repeat eu_step
  | .slice e lo hi => .bind (evalU_erase K e) fun _ => .bind (evalU_erase K lo) fun _ => .bind (.hold _) fun _ =>
      .bind (evalU_erase K hi) fun _ => by repeat eu_step
  | .sliceTo e hi => .bind (evalU_erase K e) fun _ => .bind (evalU_erase K hi) fun _ => by repeat eu_step
  | .sliceFrom e lo => .bind (evalU_erase K e) fun _ => .bind (evalU_erase K lo) fun _ => by repeat eu_step
  | .range lo hi => .bind (evalU_erase K lo) fun _ => .bind (evalU_erase K hi) fun _ => by repeat eu_step
  | .rangeIncl lo hi => .bind (evalU_erase K lo) fun _ => .bind (evalU_erase K hi) fun _ => by repeat eu_step
  | .array es => .bind (evalListU_erase K es) fun _ => by repeat eu_step
  | .repeat e n => .bind (evalU_erase K e) fun _ => .bind (evalU_erase K n) fun _ => by repeat eu_step
  | .tup es => .bind (evalListU_erase K es) fun _ => by repeat eu_step
  | .struct s fs es => .bind (evalListU_erase K es) fun _ => by repeat eu_step
  | .ctor c es => .bind (evalListU_erase K es) fun _ => by repeat eu_step
  | .call f args => .bind (evalArgsU_erase K (K.sig f) args) fun _ => by repeat eu_step
  | .prim p args => .bind (evalListU_erase K args) fun _ => by repeat eu_step
  | .mutPrim p x args => .bind (evalPlaceU_erase K x) fun _ => .bind (.hold _) fun _ =>
      .bind (evalListU_erase K args) fun _ => by repeat eu_step
  | .appendFrom x y => .bind (evalPlaceU_erase K x) fun _ => .bind (evalPlaceU_erase K y) fun _ => by repeat eu_step
  | .map e p body => .bind (evalU_erase K e) fun _ => .bind (.hold _) fun _ => 
      .bind (.mapLoop (fun _ => .bind (.hold _) fun _ => evalU_erase K body) _) fun _ => .pure _
  | .ite c a b => .bind (evalU_erase K c) fun _ => .branch _ (evalU_erase K a) (evalU_erase K b)
  | .match e ps bodies => .bind (evalU_erase K e) fun _ => evalMatchU_erase K _ ps bodies
  | .block ss e => .inScope <| .bind (evalListU_erase K ss) fun _ => evalU_erase K e
  | .let p e => .bind (evalU_erase K e) fun _ => by repeat eu_step
  | .decl x => by repeat eu_step
  | .assign x e => .bind (evalU_erase K e) fun _ => .bind (evalPlaceU_erase K x) fun _ => by repeat eu_step
  | .assignOp op x e => .bind (evalU_erase K e) fun _ => .bind (evalPlaceU_erase K x) fun _ => by repeat eu_step
  | .return e => .bind (evalU_erase K e) fun _ => by repeat eu_step
  | .continue => by repeat eu_step
  | .try e => .bind (evalU_erase K e) fun v => by
      cases v <;> try exact .hold _
      rename_i c l
      cases c <;> (try exact .hold _) <;> rcases l with _ | ⟨w, _ | ⟨_, _⟩⟩ <;>
        first | exact .hold _ | exact .pure _
  | .while c body => .whileLoop (evalU_erase K c) (evalU_erase K body) _
  | .for p e body => .bind (evalU_erase K e) fun _ => .bind (.hold _) fun _ => 
      .forLoop (fun _ => .bind (.hold _) fun _ => evalU_erase K body) _
  | .forMut x place body => .bind (evalPlaceU_erase K place) fun _ => .bind (.hold _) fun _ => .bind (.hold _) fun _ =>
      .forLoop (fun _ => .mutStep _ _ _ (evalU_erase K body) _) _
  | .forMutEnum i x place body => .bind (evalPlaceU_erase K place) fun _ => .bind (.hold _) fun _ => .bind (.hold _) fun _ =>
      .forLoop (fun _ => .mutStep _ _ _ (evalU_erase K body) _) _
  | .forMutZip x pat place e body => .bind (evalPlaceU_erase K place) fun _ => .bind (.hold _) fun _ => .bind (.hold _) fun _ =>
      .bind (evalU_erase K e) fun _ => .bind (.hold _) fun _ => .forLoop (fun ky => by
        rcases matchPat pat ky.2 with _ | bs
        · exact .hold _
        · exact .mutStep _ _ _ (evalU_erase K body) _) _

theorem evalPlaceU_erase (K : CtxU) : ∀ e, Eu (evalPlaceU K e) (evalPlace K.erase e)
  | .var x => by repeat eu_step
  | .field e f => .bind (evalPlaceU_erase K e) fun _ => by repeat eu_step
  | .index e i => .bind (evalPlaceU_erase K e) fun _ => .bind (evalU_erase K i) fun _ => by repeat eu_step
  | .slice e lo hi => .bind (evalPlaceU_erase K e) fun _ => .bind (evalU_erase K lo) fun _ => .bind (.hold _) fun _ =>
      .bind (evalU_erase K hi) fun _ => by repeat eu_step
  | .sliceTo e hi => .bind (evalPlaceU_erase K e) fun _ => .bind (evalU_erase K hi) fun _ => by repeat eu_step
  | .sliceFrom e lo => .bind (evalPlaceU_erase K e) fun _ => .bind (evalU_erase K lo) fun _ => by repeat eu_step
  | .int .. | .str .. | .unit | .const .. | .not .. | .bin .. | .andAlso .. | .cast .. | .from .. | .range .. | .rangeIncl ..
  | .array .. | .repeat .. | .tup .. | .struct .. | .ctor .. | .call .. | .prim .. | .mutPrim .. | .appendFrom .. | .map ..
  | .ite .. | .match .. | .block .. | .let .. | .decl .. | .assign .. | .assignOp .. | .return .. | .continue | .try ..
  | .while .. | .for .. | .forMut .. | .forMutEnum .. | .forMutZip .. => .hold _

theorem evalListU_erase (K : CtxU) : ∀ es, Eu (evalListU K es) (evalList K.erase es)
  | [] => .pure _
  | e :: es => .bind (evalU_erase K e) fun _ => .bind (evalListU_erase K es) fun _ => .pure _

theorem evalArgsU_erase (K : CtxU) : ∀ ms es, Eu (evalArgsU K ms es) (evalArgs K.erase ms es)
  | [], [] => .pure _
  | .val :: ms, e :: es => .bind (evalU_erase K e) fun _ => .bind (evalArgsU_erase K ms es) fun _ => .pure _
  | .mutRef :: ms, e :: es => .bind (evalPlaceU_erase K e) fun _ => .bind (evalArgsU_erase K ms es) fun _ => .pure _
  | [], _ :: _ => .hold _
  | .val :: _, [] => .hold _
  | .mutRef :: _, [] => .hold _

theorem evalMatchU_erase (K : CtxU) (v : Val) : ∀ ps es, Eu (evalMatchU K v ps es) (evalMatch K.erase v ps es)
  | p :: ps, e :: es => by
    rw [evalMatchU, evalMatch]
    rcases matchPat p v with _ | bs
    · exact evalMatchU_erase K v ps es
    · exact .inScope <| .bind (.hold _) fun _ => evalU_erase K e
  | [], _ => by rw [evalMatchU, evalMatch] <;> first | exact .hold _ | simp
  | _ :: _, [] => by rw [evalMatchU, evalMatch] <;> first | exact .hold _ | simp

end

/-- Calls have the same outcome. -/
theorem callU_erase (T : Target) (P : Program) (fuel depth : Nat) (f : Fn) (args : List Val) :
    shown (callU T P fuel depth f args) = call T P fuel depth f args := by
  induction depth generalizing f args with
  | zero => rfl
  | succ d ih =>
    have h : CtxU.erase ⟨T, fuel, constVal T P, fun f => (P.fn f).params.map (·.2), callU T P fuel d⟩ =
        ⟨T, fuel, constVal T P, fun f => (P.fn f).params.map (·.2), Source.call T P fuel d⟩ := by
      simp only [CtxU.erase, ih]
    have := evalU_erase ⟨T, fuel, constVal T P, fun f => (P.fn f).params.map (·.2), callU T P fuel d⟩
      (P.fn f).body (((P.fn f).params.map (·.1)).zip args)
    rw [h] at this
    show shown (runBodyU _ _ _) = (eval _ _ _ >>= _)
    rw [← this]
    unfold runBodyU
    generalize evalU _ _ _ = r
    rcases r with ⟨e | c, env⟩
    · dsimp only
      split <;> rfl
    · dsimp only
      show _ = (((List.filter (fun p => decide (p.2 = Mode.mutRef)) (P.fn f).params).mapM fun p => getVar p.1 env) >>= _)
      generalize ((List.filter (fun p => decide (p.2 = Mode.mutRef)) (P.fn f).params).mapM fun p => getVar p.1 env) = q
      rcases q with e | outs
      · rfl
      · cases c <;> rfl

end Verif.Source
