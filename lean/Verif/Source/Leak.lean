import Verif.Source.Semantics

/-!
What an evaluation shows to an observer who sees the course of the execution but not the data: every branch taken, every
index and slice bound, the number of rounds of every loop, the lengths of the sequences given to library functions, the amounts
of shifts, the operands of divisions, and which functions are called.

This is the interpreter of `Semantics.lean` once more, with a list of such events beside every outcome. `evalT_erase` and
`callT_erase` show that the outcomes are the same.
-/

set_option linter.constructorNameAsVariable false

namespace Verif.Source
open Verif

/-- Something an observer sees. -/
inductive Event where
  /-- the outcome of a test: `if`, `&&`, `while`, `?`, an arm of a `match` -/
  | branch (b : Bool)
  /-- an index into a sequence -/
  | index (i : Nat)
  /-- the bounds of a slice -/
  | range (a b : Nat)
  /-- the number of items a loop or `map` goes over, or of a `[x; n]` -/
  | count (n : Nat)
  /-- the lengths and `usize` arguments of a library function -/
  | sizes (ns : List Nat)
  /-- the amount of a shift, the operands of a division -/
  | operand (v : Val)
  /-- a call of a function of the crate -/
  | call (f : Fn)
deriving BEq

abbrev Trace := List Event

/-- Evaluation with a trace. -/
def ET (α : Type) := Env → Trace × R (Ctl α × Env)

/-- What follows an outcome. -/
def thenT {α β : Type} (x : Trace × R (Ctl α × Env)) (f : α → ET β) : Trace × R (Ctl β × Env) :=
  match x with
  | (t, .error e) => (t, .error e)
  | (t, .ok (.val a, env)) => (t ++ (f a env).1, (f a env).2)
  | (t, .ok (.ret v, env)) => (t, .ok (.ret v, env))
  | (t, .ok (.cont, env)) => (t, .ok (.cont, env))

instance : Monad ET where
  pure a := fun env => ([], .ok (.val a, env))
  bind x f := fun env => thenT (x env) f

/-- A step that shows nothing. -/
def quiet {α : Type} (x : E α) : ET α := fun env => ([], x env)

/-- Shows events. -/
def emit (t : Trace) : ET Unit := fun env => (t, .ok (.val (), env))

def inScopeT {α : Type} (x : ET α) : ET α := fun env =>
  ((x env).1, (x env).2 >>= fun (c, env') => .ok (c, env'.drop (env'.length - env.length)))

/-- What is seen of an operand. -/
def sizeOfVal : Val → List Nat
  | .seq xs => [xs.length]
  | .usize n => [n]
  | _ => []

/-- What is seen of an operator applied to two values. -/
def binLeak (op : BinOp) (a b : Val) : Trace :=
  match op with
  | .shl | .shr => [.operand b]
  | .div | .rem =>
    match a, b with
    | .u8 _, .u8 _ | .u32 _, .u32 _ | .u64 _, .u64 _ | .usize _, .usize _ => [.operand a, .operand b]
    | _, _ => []
  | _ => []

/-- A test. -/
def branchT (v : Val) (a b : ET Val) : ET Val :=
  match v with
  | .bool c => if c then (do emit [.branch true]; a) else (do emit [.branch false]; b)
  | _ => quiet stuck

/-- The body of a loop: `continue` ends it. -/
def absorb (x : E Val) : E Val := fun env =>
  x env >>= fun (c, env') =>
    match c with
    | .ret v => .ok (.ret v, env')
    | .val _ | .cont => .ok (.val .unit, env')

def absorbT (x : ET Val) : ET Val := fun env =>
  ((x env).1, (x env).2 >>= fun (c, env') =>
    match c with
    | .ret v => .ok (.ret v, env')
    | .val _ | .cont => .ok (.val .unit, env'))

def whileLoopT (c body : ET Val) : Nat → ET Val
  | 0 => quiet fun _ => .error .fuel
  | n + 1 => do
    let v ← c
    branchT v (do let _ ← absorbT (inScopeT body); whileLoopT c body n) (pure .unit)

def forLoopT {α : Type} (step : α → ET Val) : List α → ET Val
  | [] => pure .unit
  | x :: xs => do
    let _ ← absorbT (inScopeT (step x))
    forLoopT step xs

/-- Runs the body of a loop over `place.iter_mut()` on element `cur`, and stores the element back. -/
def elemT (p : Path) (x : Id) (bs : List (Id × Val)) (body : ET Val) (k : Nat) (cur : Val) : ET Val := fun env =>
  let r := body ((x, cur) :: bs ++ env)
  (r.1, r.2 >>= fun (c, env1) =>
    getVar x env1 >>= fun new =>
      writePath (p.push (.idx k)) new (env1.drop (env1.length - env.length)) >>= fun (_, env2) => .ok (c, env2))

def mutStepT (p : Path) (x : Id) (bs : List (Id × Val)) (body : ET Val) (k : Nat) : ET Val := do
  let cur ← quiet (readPath (p.push (.idx k)))
  elemT p x bs body k cur

def mapLoopT (step : Val → ET Val) : List Val → ET (List Val)
  | [] => pure []
  | x :: xs => do
    let y ← inScopeT (step x)
    let ys ← mapLoopT step xs
    return y :: ys

/-- `Ctx`, with calls that leave a trace. -/
structure CtxT where
  T : Target
  fuel : Nat
  const : Const → R Val
  sig : Fn → List Mode
  call : Fn → List Val → Trace × R (Val × List Val)

/-- The context without traces. -/
def CtxT.erase (K : CtxT) : Ctx where
  T := K.T
  fuel := K.fuel
  const := K.const
  sig := K.sig
  call f vs := (K.call f vs).2

/-- A call, from a context. -/
def callStep (K : CtxT) (f : Fn) (vs : List Val) : ET (Val × List Val) := fun env =>
  (.call f :: (K.call f vs).1, (K.call f vs).2 >>= fun a => .ok (.val a, env))

mutual

def evalT (K : CtxT) : Expr → ET Val
  | .int t n => pure (mkInt t n)
  | .str s => pure (.str s)
  | .unit => pure .unit
  | .var x => quiet (readPath ⟨x, []⟩)
  | .const c => quiet (lift (K.const c))
  | .not e => do
    let v ← evalT K e
    quiet (lift (evalNot v))
  | .bin op a b => do
    let x ← evalT K a
    let y ← evalT K b
    emit (binLeak op x y)
    quiet (lift (evalBin K.T op x y))
  | .andAlso a b => do
    let v ← evalT K a
    branchT v (evalT K b) (pure (.bool false))
  | .cast e t => do
    let v ← evalT K e
    quiet (lift (evalCast K.T t v))
  | .from t e => do
    let v ← evalT K e
    quiet (lift (evalFrom t v))
  | .field e f => do
    let v ← evalT K e
    quiet (lift (getAcc v (.fld f)))
  | .index e i => do
    let v ← evalT K e
    let n ← evalT K i
    let n ← quiet (ofUsize n)
    emit [.index n]
    quiet (lift (getAcc v (.idx n)))
  | .slice e lo hi => do
    let v ← evalT K e
    let a ← evalT K lo
    let a ← quiet (ofUsize a)
    let b ← evalT K hi
    let b ← quiet (ofUsize b)
    emit [.range a b]
    quiet (lift (getAcc v (.rng a b)))
  | .sliceTo e hi => do
    let v ← evalT K e
    let b ← evalT K hi
    let b ← quiet (ofUsize b)
    emit [.range 0 b]
    quiet (lift (getAcc v (.rng 0 b)))
  | .sliceFrom e lo => do
    let v ← evalT K e
    let a ← evalT K lo
    let a ← quiet (ofUsize a)
    let xs ← quiet (ofSeq v)
    emit [.range a xs.length]
    quiet (lift (getAcc v (.rng a xs.length)))
  | .range lo hi => do
    let a ← evalT K lo
    let b ← evalT K hi
    quiet (lift (evalRange false a b))
  | .rangeIncl lo hi => do
    let a ← evalT K lo
    let b ← evalT K hi
    quiet (lift (evalRange true a b))
  | .array es => do
    let vs ← evalListT K es
    return .seq vs
  | .repeat e n => do
    let v ← evalT K e
    let n ← evalT K n
    let n ← quiet (ofUsize n)
    emit [.count n]
    return .seq (List.replicate n v)
  | .tup es => do
    let vs ← evalListT K es
    return .tup vs
  | .struct s fs es => do
    let vs ← evalListT K es
    return .struct s (fs.zip vs)
  | .ctor c es => do
    let vs ← evalListT K es
    return .enum c vs
  | .call f args => do
    let as ← evalArgsT K (K.sig f) args
    let vs ← quiet (readArgs as)
    let r ← callStep K f vs
    let _ ← quiet (writeArgs as r.2)
    return r.1
  | .prim p args => do
    let vs ← evalListT K args
    emit [.sizes (vs.flatMap sizeOfVal)]
    quiet (lift (evalPrim K.T p vs))
  | .mutPrim p x args => do
    let path ← evalPlaceT K x
    let v ← quiet (readPath path)
    let vs ← evalListT K args
    emit [.sizes ((v :: vs).flatMap sizeOfVal)]
    let r ← quiet (lift (evalMutPrim p v vs))
    let _ ← quiet (writePath path r.1)
    return r.2
  | .appendFrom x y => do
    let p ← evalPlaceT K x
    let q ← evalPlaceT K y
    let v ← quiet (readPath p)
    let w ← quiet (readPath q)
    emit [.sizes ([v, w].flatMap sizeOfVal)]
    let r ← quiet (lift (evalMutPrim .append v [w]))
    let _ ← quiet (writePath p r.1)
    let _ ← quiet (writePath q (.seq []))
    return r.2
  | .map e p body => do
    let v ← evalT K e
    let xs ← quiet (ofSeq v)
    emit [.count xs.length]
    let ys ← mapLoopT (fun x => do let _ ← quiet (bindPat p x); evalT K body) xs
    return .seq ys
  | .ite c a b => do
    let v ← evalT K c
    branchT v (evalT K a) (evalT K b)
  | .match e ps bodies => do
    let v ← evalT K e
    evalMatchT K v ps bodies
  | .block ss e => inScopeT do
    let _ ← evalListT K ss
    evalT K e
  | .let p e => do
    let v ← evalT K e
    quiet (bindPat p v)
  | .decl x => quiet (push [(x, .unit)])
  | .assign x e => do
    let v ← evalT K e
    let p ← evalPlaceT K x
    quiet (writePath p v)
  | .assignOp op x e => do
    let v ← evalT K e
    let p ← evalPlaceT K x
    let w ← quiet (readPath p)
    emit (binLeak op w v)
    let r ← quiet (lift (evalBin K.T op w v))
    quiet (writePath p r)
  | .return e => do
    let v ← evalT K e
    quiet fun env => .ok (.ret v, env)
  | .continue => quiet fun env => .ok (.cont, env)
  | .try e => do
    let v ← evalT K e
    match v with
    | .enum .Ok [w] => do
      emit [.branch true]
      pure w
    | .enum .Err [w] => do
      emit [.branch false]
      quiet fun env => .ok (.ret (.enum .Err [w]), env)
    | _ => quiet stuck
  | .while c body => whileLoopT (evalT K c) (evalT K body) K.fuel
  | .for p e body => do
    let v ← evalT K e
    let xs ← quiet (ofSeq v)
    emit [.count xs.length]
    forLoopT (fun x => do let _ ← quiet (bindPat p x); evalT K body) xs
  | .forMut x place body => do
    let p ← evalPlaceT K place
    let v ← quiet (readPath p)
    let xs ← quiet (ofSeq v)
    emit [.count xs.length]
    forLoopT (mutStepT p x [] (evalT K body)) (List.range xs.length)
  | .forMutEnum i x place body => do
    let p ← evalPlaceT K place
    let v ← quiet (readPath p)
    let xs ← quiet (ofSeq v)
    emit [.count xs.length]
    forLoopT (fun k => mutStepT p x [(i, .usize k)] (evalT K body) k) (List.range xs.length)
  | .forMutZip x pat place e body => do
    let p ← evalPlaceT K place
    let v ← quiet (readPath p)
    let xs ← quiet (ofSeq v)
    let w ← evalT K e
    let ys ← quiet (ofSeq w)
    emit [.count xs.length, .count ys.length]
    forLoopT (fun ky =>
        match matchPat pat ky.2 with
        | some bs => mutStepT p x bs (evalT K body) ky.1
        | none => quiet stuck)
      ((List.range xs.length).zip ys)

def evalPlaceT (K : CtxT) : Expr → ET Path
  | .var x => pure ⟨x, []⟩
  | .field e f => do
    let p ← evalPlaceT K e
    return p.push (.fld f)
  | .index e i => do
    let p ← evalPlaceT K e
    let n ← evalT K i
    let n ← quiet (ofUsize n)
    emit [.index n]
    return p.push (.idx n)
  | .slice e lo hi => do
    let p ← evalPlaceT K e
    let a ← evalT K lo
    let a ← quiet (ofUsize a)
    let b ← evalT K hi
    let b ← quiet (ofUsize b)
    emit [.range a b]
    return p.push (.rng a b)
  | .sliceTo e hi => do
    let p ← evalPlaceT K e
    let b ← evalT K hi
    let b ← quiet (ofUsize b)
    emit [.range 0 b]
    return p.push (.rng 0 b)
  | .sliceFrom e lo => do
    let p ← evalPlaceT K e
    let a ← evalT K lo
    let a ← quiet (ofUsize a)
    let v ← quiet (readPath p)
    let xs ← quiet (ofSeq v)
    emit [.range a xs.length]
    return p.push (.rng a xs.length)
  | _ => quiet stuck

def evalListT (K : CtxT) : List Expr → ET (List Val)
  | [] => pure []
  | e :: es => do
    let v ← evalT K e
    let vs ← evalListT K es
    return v :: vs

def evalArgsT (K : CtxT) : List Mode → List Expr → ET (List Arg)
  | [], [] => pure []
  | .val :: ms, e :: es => do
    let v ← evalT K e
    let as ← evalArgsT K ms es
    return .val v :: as
  | .mutRef :: ms, e :: es => do
    let p ← evalPlaceT K e
    let as ← evalArgsT K ms es
    return .place p :: as
  | _, _ => quiet stuck

def evalMatchT (K : CtxT) (v : Val) : List Pat → List Expr → ET Val
  | p :: ps, e :: es =>
    match matchPat p v with
    | some bs => do
      emit [.branch true]
      inScopeT do
        let _ ← quiet (push bs)
        evalT K e
    | none => do
      emit [.branch false]
      evalMatchT K v ps es
  | _, _ => quiet stuck

end

/-- Runs a function body on arguments. -/
def runBodyT (K : CtxT) (d : FnDef) (args : List Val) : Trace × R (Val × List Val) :=
  let r := evalT K d.body ((d.params.map (·.1)).zip args)
  (r.1, r.2 >>= fun (c, env) =>
    ((d.params.filter (·.2 = .mutRef)).mapM fun p => getVar p.1 env) >>= fun outs =>
      match c with
      | .val v => .ok (v, outs)
      | .ret v => .ok (v, outs)
      | .cont => .error .stuck)

/-- A call of function `f` of the program `P` on the target `T`, and what is seen of it. -/
def callT (T : Target) (P : Program) (fuel : Nat) : Nat → Fn → List Val → Trace × R (Val × List Val)
  | 0, _, _ => ([], .error .fuel)
  | depth + 1, f, args =>
    runBodyT { T := T, fuel := fuel, const := constVal T P, sig := fun f => (P.fn f).params.map (·.2),
               call := callT T P fuel depth } (P.fn f) args

/-! ### The outcomes are those of `Semantics.lean` -/

/-- The same outcomes. -/
def Er {α : Type} (x : ET α) (y : E α) : Prop := ∀ env, (x env).2 = y env

namespace Er
variable {α β : Type}

theorem pure (a : α) : Er (Pure.pure a) (Pure.pure a) := fun _ => rfl

theorem quiet (x : E α) : Er (Source.quiet x) x := fun _ => rfl

theorem bind {x : ET α} {y : E α} {f : α → ET β} {g : α → E β} (h : Er x y) (hf : ∀ a, Er (f a) (g a)) :
    Er (x >>= f) (y >>= g) := by
  intro env
  show (thenT (x env) f).2 = (y env >>= fun (c, env') =>
      match c with
      | .val a => g a env'
      | .ret v => .ok (.ret v, env')
      | .cont => .ok (.cont, env'))
  rw [← h env]
  rcases x env with ⟨t, e | ⟨a | v | _, env'⟩⟩
  · rfl
  · exact hf a env'
  · rfl
  · rfl

theorem emit (t : Trace) {x : ET α} {y : E α} (h : Er x y) : Er (Source.emit t >>= fun _ => x) y := fun env => h env

theorem inScope {x : ET α} {y : E α} (h : Er x y) : Er (inScopeT x) (Source.inScope y) := by
  intro env
  show ((x env).2 >>= _) = (y env >>= _)
  rw [h env]

theorem branch (v : Val) {a b : ET Val} {a' b' : E Val} (ha : Er a a') (hb : Er b b') : Er (branchT v a b) (Source.branch v a' b') := by
  cases v <;> try exact quiet _
  rename_i c
  cases c
  · exact emit _ hb
  · exact emit _ ha

theorem absorb {x : ET Val} {y : E Val} (h : Er x y) : Er (absorbT x) (Source.absorb y) := by
  intro env
  show ((x env).2 >>= _) = (y env >>= _)
  rw [h env]

theorem whileLoop_eq (c body : E Val) (n : Nat) :
    Source.whileLoop c body (n + 1) =
      c >>= fun v => Source.branch v (Source.absorb (Source.inScope body) >>= fun _ => Source.whileLoop c body n)
        (Pure.pure .unit) := by
  funext env
  show (c env >>= _) = (c env >>= _)
  rcases c env with e | ⟨a | v | _, env'⟩
  · rfl
  · cases a <;> try rfl
    rename_i b
    cases b
    · rfl
    · show (Source.inScope body env' >>= _) = ((Source.inScope body env' >>= _) >>= _)
      rcases Source.inScope body env' with e | ⟨a | v | _, env''⟩ <;> rfl
  · rfl
  · rfl

theorem forLoop_eq (step : α → E Val) (x : α) (xs : List α) :
    Source.forLoop step (x :: xs) =
      Source.absorb (Source.inScope (step x)) >>= fun _ => Source.forLoop step xs := by
  funext env
  show (Source.inScope (step x) env >>= _) = ((Source.inScope (step x) env >>= _) >>= _)
  rcases Source.inScope (step x) env with e | ⟨a | v | _, env''⟩ <;> rfl

theorem whileLoop {c body : ET Val} {c' body' : E Val} (hc : Er c c') (hb : Er body body') (n : Nat) :
    Er (whileLoopT c body n) (Source.whileLoop c' body' n) := by
  induction n with
  | zero => exact fun _ => rfl
  | succ n ih =>
    rw [whileLoop_eq]
    exact bind hc fun v => branch v (bind (absorb (inScope hb)) fun _ => ih) (pure _)

theorem forLoop {step : α → ET Val} {step' : α → E Val} (h : ∀ a, Er (step a) (step' a)) (xs : List α) :
    Er (forLoopT step xs) (Source.forLoop step' xs) := by
  induction xs with
  | nil => exact fun _ => rfl
  | cons x xs ih =>
    rw [forLoop_eq]
    exact bind (absorb (inScope (h x))) fun _ => ih

theorem mutStep (p : Path) (x : Id) (bs : List (Id × Val)) {body : ET Val} {body' : E Val} (h : Er body body') (k : Nat) :
    Er (mutStepT p x bs body k) (Source.mutStep p x bs body' k) := by
  intro env
  show (thenT (Source.quiet (readPath (p.push (.idx k))) env) _).2 = (readPath (p.push (.idx k)) env >>= _)
  unfold Source.quiet readPath
  rcases getVar (p.push (.idx k)).root env with e | v
  · rfl
  · show (thenT ([], getAccs v (p.push (.idx k)).accs >>= _) _).2 = ((getAccs v (p.push (.idx k)).accs >>= _) >>= _)
    rcases getAccs v (p.push (.idx k)).accs with e | w
    · rfl
    · show ((body ((x, w) :: bs ++ env)).2 >>= _) = (body' ((x, w) :: bs ++ env) >>= _)
      rw [← h]

theorem mapLoop {step : Val → ET Val} {step' : Val → E Val} (h : ∀ a, Er (step a) (step' a)) (xs : List Val) :
    Er (mapLoopT step xs) (Source.mapLoop step' xs) := by
  induction xs with
  | nil => exact pure _
  | cons x xs ih => exact bind (inScope (h x)) fun y => bind ih fun ys => pure _

theorem callStep (K : CtxT) (f : Fn) (vs : List Val) : Er (Source.callStep K f vs) (lift (K.erase.call f vs)) := fun _ => rfl

end Er

/-- One step of a proof of `Er`. -/
macro "er_step" : tactic => `(tactic| first
  | exact Er.pure _
  | exact Er.quiet _
  | exact Er.callStep _ _ _
  | refine Er.emit _ ?_
  | refine Er.bind ?_ fun _ => ?_
  | refine Er.inScope ?_
  | refine Er.branch _ ?_ ?_)

mutual

theorem evalT_erase (K : CtxT) : ∀ e, Er (evalT K e) (eval K.erase e)
  | .int t n => by repeat er_step
  | .str s => by repeat er_step
  | .unit => by repeat er_step
  | .var x => by repeat er_step
  | .const c => by repeat er_step
  | .not e => .bind (evalT_erase K e) fun _ => by repeat er_step
  | .bin op a b => .bind (evalT_erase K a) fun _ => .bind (evalT_erase K b) fun _ => by repeat er_step
  | .andAlso a b => .bind (evalT_erase K a) fun _ => .branch _ (evalT_erase K b) (.pure _)
  | .cast e t => .bind (evalT_erase K e) fun _ => by repeat er_step
  | .from t e => .bind (evalT_erase K e) fun _ => by repeat er_step
  | .field e f => .bind (evalT_erase K e) fun _ => by repeat er_step
  | .index e i => .bind (evalT_erase K e) fun _ => .bind (evalT_erase K i) fun _ => by repeat er_step
  | .slice e lo hi => .bind (evalT_erase K e) fun _ => .bind (evalT_erase K lo) fun _ => .bind (.quiet _) fun _ =>
      .bind (evalT_erase K hi) fun _ => by repeat er_step
  | .sliceTo e hi => .bind (evalT_erase K e) fun _ => .bind (evalT_erase K hi) fun _ => by repeat er_step
  | .sliceFrom e lo => .bind (evalT_erase K e) fun _ => .bind (evalT_erase K lo) fun _ => by repeat er_step
  | .range lo hi => .bind (evalT_erase K lo) fun _ => .bind (evalT_erase K hi) fun _ => by repeat er_step
  | .rangeIncl lo hi => .bind (evalT_erase K lo) fun _ => .bind (evalT_erase K hi) fun _ => by repeat er_step
  | .array es => .bind (evalListT_erase K es) fun _ => by repeat er_step
  | .repeat e n => .bind (evalT_erase K e) fun _ => .bind (evalT_erase K n) fun _ => by repeat er_step
  | .tup es => .bind (evalListT_erase K es) fun _ => by repeat er_step
  | .struct s fs es => .bind (evalListT_erase K es) fun _ => by repeat er_step
  | .ctor c es => .bind (evalListT_erase K es) fun _ => by repeat er_step
  | .call f args => .bind (evalArgsT_erase K (K.sig f) args) fun _ => by repeat er_step
  | .prim p args => .bind (evalListT_erase K args) fun _ => by repeat er_step
  | .mutPrim p x args => .bind (evalPlaceT_erase K x) fun _ => .bind (.quiet _) fun _ =>
      .bind (evalListT_erase K args) fun _ => by repeat er_step
  | .appendFrom x y => .bind (evalPlaceT_erase K x) fun _ => .bind (evalPlaceT_erase K y) fun _ => by repeat er_step
  | .map e p body => .bind (evalT_erase K e) fun _ => .bind (.quiet _) fun _ => .emit _ <|
      .bind (.mapLoop (fun _ => .bind (.quiet _) fun _ => evalT_erase K body) _) fun _ => .pure _
  | .ite c a b => .bind (evalT_erase K c) fun _ => .branch _ (evalT_erase K a) (evalT_erase K b)
  | .match e ps bodies => .bind (evalT_erase K e) fun _ => evalMatchT_erase K _ ps bodies
  | .block ss e => .inScope <| .bind (evalListT_erase K ss) fun _ => evalT_erase K e
  | .let p e => .bind (evalT_erase K e) fun _ => by repeat er_step
  | .decl x => by repeat er_step
  | .assign x e => .bind (evalT_erase K e) fun _ => .bind (evalPlaceT_erase K x) fun _ => by repeat er_step
  | .assignOp op x e => .bind (evalT_erase K e) fun _ => .bind (evalPlaceT_erase K x) fun _ => by repeat er_step
  | .return e => .bind (evalT_erase K e) fun _ => by repeat er_step
  | .continue => by repeat er_step
  | .try e => .bind (evalT_erase K e) fun v => by
      cases v <;> try exact .quiet _
      rename_i c l
      cases c <;> (try exact .quiet _) <;> rcases l with _ | ⟨w, _ | ⟨_, _⟩⟩ <;>
        first | exact .quiet _ | exact .emit _ (.pure _) | exact .emit _ (.quiet _)
  | .while c body => .whileLoop (evalT_erase K c) (evalT_erase K body) _
  | .for p e body => .bind (evalT_erase K e) fun _ => .bind (.quiet _) fun _ => .emit _ <|
      .forLoop (fun _ => .bind (.quiet _) fun _ => evalT_erase K body) _
  | .forMut x place body => .bind (evalPlaceT_erase K place) fun _ => .bind (.quiet _) fun _ => .bind (.quiet _) fun _ =>
      .emit _ <| .forLoop (fun _ => .mutStep _ _ _ (evalT_erase K body) _) _
  | .forMutEnum i x place body => .bind (evalPlaceT_erase K place) fun _ => .bind (.quiet _) fun _ => .bind (.quiet _) fun _ =>
      .emit _ <| .forLoop (fun _ => .mutStep _ _ _ (evalT_erase K body) _) _
  | .forMutZip x pat place e body => .bind (evalPlaceT_erase K place) fun _ => .bind (.quiet _) fun _ => .bind (.quiet _) fun _ =>
      .bind (evalT_erase K e) fun _ => .bind (.quiet _) fun _ => .emit _ <| .forLoop (fun ky => by
        rcases matchPat pat ky.2 with _ | bs
        · exact .quiet _
        · exact .mutStep _ _ _ (evalT_erase K body) _) _

theorem evalPlaceT_erase (K : CtxT) : ∀ e, Er (evalPlaceT K e) (evalPlace K.erase e)
  | .var x => by repeat er_step
  | .field e f => .bind (evalPlaceT_erase K e) fun _ => by repeat er_step
  | .index e i => .bind (evalPlaceT_erase K e) fun _ => .bind (evalT_erase K i) fun _ => by repeat er_step
  | .slice e lo hi => .bind (evalPlaceT_erase K e) fun _ => .bind (evalT_erase K lo) fun _ => .bind (.quiet _) fun _ =>
      .bind (evalT_erase K hi) fun _ => by repeat er_step
  | .sliceTo e hi => .bind (evalPlaceT_erase K e) fun _ => .bind (evalT_erase K hi) fun _ => by repeat er_step
  | .sliceFrom e lo => .bind (evalPlaceT_erase K e) fun _ => .bind (evalT_erase K lo) fun _ => by repeat er_step
  | .int .. | .str .. | .unit | .const .. | .not .. | .bin .. | .andAlso .. | .cast .. | .from .. | .range .. | .rangeIncl ..
  | .array .. | .repeat .. | .tup .. | .struct .. | .ctor .. | .call .. | .prim .. | .mutPrim .. | .appendFrom .. | .map ..
  | .ite .. | .match .. | .block .. | .let .. | .decl .. | .assign .. | .assignOp .. | .return .. | .continue | .try ..
  | .while .. | .for .. | .forMut .. | .forMutEnum .. | .forMutZip .. => .quiet _

theorem evalListT_erase (K : CtxT) : ∀ es, Er (evalListT K es) (evalList K.erase es)
  | [] => .pure _
  | e :: es => .bind (evalT_erase K e) fun _ => .bind (evalListT_erase K es) fun _ => .pure _

theorem evalArgsT_erase (K : CtxT) : ∀ ms es, Er (evalArgsT K ms es) (evalArgs K.erase ms es)
  | [], [] => .pure _
  | .val :: ms, e :: es => .bind (evalT_erase K e) fun _ => .bind (evalArgsT_erase K ms es) fun _ => .pure _
  | .mutRef :: ms, e :: es => .bind (evalPlaceT_erase K e) fun _ => .bind (evalArgsT_erase K ms es) fun _ => .pure _
  | [], _ :: _ => .quiet _
  | .val :: _, [] => .quiet _
  | .mutRef :: _, [] => .quiet _

theorem evalMatchT_erase (K : CtxT) (v : Val) : ∀ ps es, Er (evalMatchT K v ps es) (evalMatch K.erase v ps es)
  | p :: ps, e :: es => by
    rw [evalMatchT, evalMatch]
    rcases matchPat p v with _ | bs
    · exact .emit _ <| evalMatchT_erase K v ps es
    · exact .emit _ <| .inScope <| .bind (.quiet _) fun _ => evalT_erase K e
  | [], _ => by rw [evalMatchT, evalMatch] <;> first | exact .quiet _ | simp
  | _ :: _, [] => by rw [evalMatchT, evalMatch] <;> first | exact .quiet _ | simp

end

/-- Calls have the same outcome with and without a trace. -/
theorem callT_erase (T : Target) (P : Program) (fuel depth : Nat) (f : Fn) (args : List Val) :
    (callT T P fuel depth f args).2 = call T P fuel depth f args := by
  induction depth generalizing f args with
  | zero => rfl
  | succ d ih =>
    have h : CtxT.erase ⟨T, fuel, constVal T P, fun f => (P.fn f).params.map (·.2), callT T P fuel d⟩ =
        ⟨T, fuel, constVal T P, fun f => (P.fn f).params.map (·.2), Source.call T P fuel d⟩ := by
      simp only [CtxT.erase, ih]
    have := evalT_erase ⟨T, fuel, constVal T P, fun f => (P.fn f).params.map (·.2), callT T P fuel d⟩
      (P.fn f).body (((P.fn f).params.map (·.1)).zip args)
    rw [h] at this
    show ((evalT _ _ _).2 >>= _) = (eval _ _ _ >>= _)
    rw [this]
    rfl

end Verif.Source
