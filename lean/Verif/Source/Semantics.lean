import Verif.Rust
import Verif.Source.Syntax

/-!
Evaluation of the Rust fragment of `Syntax.lean`.

* A value is a copy of the whole data it stands for: moves, clones, shared references and boxes are the value itself.
* `&mut` arguments are passed by copying in and copying back. The borrow checker excludes every other use of the place
  during the call, so this cannot be told apart from a pointer.
* Arithmetic on every integer type is checked as in `Verif.Rust`: with overflow checks on it panics, otherwise it wraps.
  A shift by the width or more panics, or uses the amount modulo the width.
* Iterators are the lists of their items; `map` is evaluated where it is written and in order.
* A `Formatter` is the text written to it so far; writing does not fail.
* `while` loops run at most `fuel` times and calls nest at most `depth` deep; beyond that the outcome is `Err.fuel`.
  `Err.stuck` is the outcome of an ill-typed program. Neither is an outcome of the crate: the theorems exclude both.
-/

set_option linter.constructorNameAsVariable false

namespace Verif.Source
open Verif

/-- What can stop an evaluation. -/
inductive Err where
  | panic (p : Panic)
  | stuck
  | fuel
deriving DecidableEq, Repr

abbrev R (α : Type) := Except Err α

/-- A computation of the model as a step of an evaluation. -/
def up {α : Type} : M α → R α
  | .ok a => .ok a
  | .error p => .error (.panic p)

inductive Val where
  | unit
  | bool (b : Bool)
  | u8 (x : U8)
  | u32 (x : U32)
  | u64 (x : U64)
  | usize (n : Nat)
  /-- literals of type `i32` -/
  | i32 (n : Nat)
  | str (s : String)
  /-- arrays, vectors, slices, iterators -/
  | seq (xs : List Val)
  | tup (xs : List Val)
  | struct (s : Struct) (fields : List (Id × Val))
  | enum (c : Ctor) (args : List Val)
deriving Repr, BEq

/-- The variables in scope, innermost first. -/
abbrev Env := List (Id × Val)

/-- How an expression ends: with a value, or by leaving the function or the iteration. -/
inductive Ctl (α : Type) where
  | val (a : α)
  | ret (v : Val)
  | cont

/-- Evaluation reads and changes the variables. -/
def E (α : Type) := Env → R (Ctl α × Env)

instance : Monad E where
  pure a := fun env => .ok (.val a, env)
  bind x f := fun env =>
    x env >>= fun (c, env') =>
      match c with
      | .val a => f a env'
      | .ret v => .ok (.ret v, env')
      | .cont => .ok (.cont, env')

/-- A step that does not touch the variables. -/
def lift {α : Type} (x : R α) : E α := fun env => x >>= fun a => .ok (.val a, env)

def stuck {α : Type} : E α := fun _ => .error .stuck

/-- Runs `x` and removes the variables it has added. -/
def inScope {α : Type} (x : E α) : E α := fun env =>
  x env >>= fun (c, env') => .ok (c, env'.drop (env'.length - env.length))

/-! ### Places -/

inductive Acc where
  | fld (f : Id)
  | idx (i : Nat)
  | rng (a b : Nat)

/-- A place: a variable, and a way to a part of it. -/
structure Path where
  root : Id
  accs : List Acc

def Path.push (p : Path) (a : Acc) : Path := { p with accs := p.accs ++ [a] }

def getVar (x : Id) : Env → R Val
  | [] => .error .stuck
  | (y, v) :: rest => if x = y then .ok v else getVar x rest

def setVar (x : Id) (v : Val) : Env → R Env
  | [] => .error .stuck
  | (y, w) :: rest => if x = y then .ok ((y, v) :: rest) else (setVar x v rest).map ((y, w) :: ·)

def getAcc (v : Val) (a : Acc) : R Val :=
  match v, a with
  | .struct _ fs, .fld f => getVar f fs
  | .seq xs, .idx i => up (Verif.idx xs i)
  | .seq xs, .rng a b => (up (Verif.slice xs a b)).map .seq
  | _, _ => .error .stuck

def setAcc (v : Val) (a : Acc) (w : Val) : R Val :=
  match v, a, w with
  | .struct s fs, .fld f, w => (setVar f w fs).map (.struct s)
  | .seq xs, .idx i, w => (up (Verif.upd xs i w)).map .seq
  | .seq xs, .rng a b, .seq ys => .ok (.seq (xs.take a ++ ys ++ xs.drop b))
  | _, _, _ => .error .stuck

def getAccs (v : Val) : List Acc → R Val
  | [] => .ok v
  | a :: rest => getAcc v a >>= fun w => getAccs w rest

def setAccs (v : Val) : List Acc → Val → R Val
  | [], w => .ok w
  | [a], w => setAcc v a w
  | a :: rest, w => getAcc v a >>= fun u => setAccs u rest w >>= fun u' => setAcc v a u'

/-- The value in a place. -/
def readPath (p : Path) : E Val := fun env =>
  getVar p.root env >>= fun v => getAccs v p.accs >>= fun w => .ok (.val w, env)

/-- Stores a value in a place. -/
def writePath (p : Path) (w : Val) : E Val := fun env =>
  getVar p.root env >>= fun v => setAccs v p.accs w >>= fun v' =>
    setVar p.root v' env >>= fun env' => .ok (.val .unit, env')

/-- Adds variables. -/
def push (bs : List (Id × Val)) : E Val := fun env => .ok (.val .unit, bs ++ env)

/-! ### Operators -/

/-- An integer of type `t`. -/
def mkInt : IntTy → Nat → Val
  | .u8, n => .u8 (BitVec.ofNat 8 n)
  | .u32, n => .u32 (BitVec.ofNat 32 n)
  | .u64, n => .u64 (BitVec.ofNat 64 n)
  | .usize, n => .usize n
  | .i32, n => .i32 n

/-- The result of an operation on integers of `w` bits with exact result `exact`, where `wrapped` is the result modulo `2^w`. -/
def checked {w : Nat} (T : Target) (fits : Bool) (wrapped : BitVec w) : M (BitVec w) :=
  if fits then .ok wrapped else if T.checks then .error .overflow else .ok wrapped

def bvAdd {w : Nat} (T : Target) (a b : BitVec w) : M (BitVec w) := checked T (a.toNat + b.toNat < 2 ^ w) (a + b)
def bvSub {w : Nat} (T : Target) (a b : BitVec w) : M (BitVec w) := checked T (b.toNat ≤ a.toNat) (a - b)
def bvMul {w : Nat} (T : Target) (a b : BitVec w) : M (BitVec w) := checked T (a.toNat * b.toNat < 2 ^ w) (a * b)

def bvShl {w : Nat} (T : Target) (a : BitVec w) (s : Nat) : M (BitVec w) :=
  if s < w then .ok (a <<< s) else if T.checks then .error .overflow else .ok (a <<< (s % w))
def bvShr {w : Nat} (T : Target) (a : BitVec w) (s : Nat) : M (BitVec w) :=
  if s < w then .ok (a >>> s) else if T.checks then .error .overflow else .ok (a >>> (s % w))

def usizeShl (T : Target) (a s : Nat) : M Nat :=
  if s < T.bits then .ok ((a <<< s) % 2 ^ T.bits)
  else if T.checks then .error .overflow else .ok ((a <<< (s % T.bits)) % 2 ^ T.bits)
def usizeShr (T : Target) (a s : Nat) : M Nat :=
  if s < T.bits then .ok (a >>> s) else if T.checks then .error .overflow else .ok (a >>> (s % T.bits))

def usizeDiv (a b : Nat) : M Nat := if b = 0 then .error .divZero else .ok (a / b)

/-- The number of places to shift by; it can be of any integer type. -/
def shiftAmount : Val → R Nat
  | .u8 x => .ok x.toNat
  | .u32 x => .ok x.toNat
  | .u64 x => .ok x.toNat
  | .usize n => .ok n
  | .i32 n => .ok n
  | _ => .error .stuck

def evalShift (T : Target) (left : Bool) (v : Val) (s : Nat) : R Val :=
  match v with
  | .u8 x => (up (if left then bvShl T x s else bvShr T x s)).map .u8
  | .u32 x => (up (if left then bvShl T x s else bvShr T x s)).map .u32
  | .u64 x => (up (if left then bvShl T x s else bvShr T x s)).map .u64
  | .usize x => (up (if left then usizeShl T x s else usizeShr T x s)).map .usize
  | _ => .error .stuck

/-- Operators on two numbers of `w` bits. -/
def bvBin {w : Nat} (T : Target) (mk : BitVec w → Val) (op : BinOp) (a b : BitVec w) : R Val :=
  match op with
  | .add => (up (bvAdd T a b)).map mk
  | .sub => (up (bvSub T a b)).map mk
  | .mul => (up (bvMul T a b)).map mk
  | .div => (up (if b = 0 then .error .divZero else .ok (a / b))).map mk
  | .rem => (up (if b = 0 then .error .remZero else .ok (a % b))).map mk
  | .and => .ok (mk (a &&& b))
  | .or => .ok (mk (a ||| b))
  | .xor => .ok (mk (a ^^^ b))
  | .eq => .ok (.bool (decide (a = b)))
  | .ne => .ok (.bool (decide (a ≠ b)))
  | .lt => .ok (.bool (decide (a < b)))
  | .le => .ok (.bool (decide (a ≤ b)))
  | .gt => .ok (.bool (decide (a > b)))
  | .ge => .ok (.bool (decide (a ≥ b)))
  | .shl | .shr => .error .stuck

/-- Operators on two numbers of type `usize`. -/
def usizeBin (T : Target) (op : BinOp) (a b : Nat) : R Val :=
  match op with
  | .add => (up (T.add a b)).map .usize
  | .sub => (up (T.sub a b)).map .usize
  | .mul => (up (T.mul a b)).map .usize
  | .div => (up (usizeDiv a b)).map .usize
  | .rem => (up (T.rem a b)).map .usize
  | .and => .ok (.usize (a &&& b))
  | .or => .ok (.usize (a ||| b))
  | .xor => .ok (.usize (a ^^^ b))
  | .eq => .ok (.bool (decide (a = b)))
  | .ne => .ok (.bool (decide (a ≠ b)))
  | .lt => .ok (.bool (decide (a < b)))
  | .le => .ok (.bool (decide (a ≤ b)))
  | .gt => .ok (.bool (decide (a > b)))
  | .ge => .ok (.bool (decide (a ≥ b)))
  | .shl | .shr => .error .stuck

def evalBin (T : Target) (op : BinOp) (a b : Val) : R Val :=
  match op with
  | .shl => shiftAmount b >>= evalShift T true a
  | .shr => shiftAmount b >>= evalShift T false a
  | op =>
    match a, b with
    | .u8 x, .u8 y => bvBin T .u8 op x y
    | .u32 x, .u32 y => bvBin T .u32 op x y
    | .u64 x, .u64 y => bvBin T .u64 op x y
    | .usize x, .usize y => usizeBin T op x y
    | _, _ => .error .stuck

def evalNot : Val → R Val
  | .bool b => .ok (.bool (!b))
  | .u8 x => .ok (.u8 (~~~x))
  | .u32 x => .ok (.u32 (~~~x))
  | .u64 x => .ok (.u64 (~~~x))
  | _ => .error .stuck

/-- `v as t` -/
def evalCast (T : Target) (t : IntTy) (v : Val) : R Val :=
  let n : R Nat := match v with
    | .u8 x => .ok x.toNat
    | .u32 x => .ok x.toNat
    | .u64 x => .ok x.toNat
    | .usize n => .ok n
    | _ => .error .stuck
  n >>= fun n => match t with
    | .u8 => .ok (.u8 (BitVec.ofNat 8 n))
    | .u32 => .ok (.u32 (BitVec.ofNat 32 n))
    | .u64 => .ok (.u64 (BitVec.ofNat 64 n))
    | .usize => .ok (.usize (n % 2 ^ T.bits))
    | .i32 => .error .stuck

/-- `t::from(v)`: the conversions that lose nothing. -/
def evalFrom (t : IntTy) (v : Val) : R Val :=
  match t, v with
  | .u32, .u8 x => .ok (.u32 (x.setWidth 32))
  | .u64, .u8 x => .ok (.u64 (x.setWidth 64))
  | .usize, .u8 x => .ok (.usize x.toNat)
  | _, _ => .error .stuck

/-- `lo..hi`, or `lo..=hi` -/
def evalRange (incl : Bool) (lo hi : Val) : R Val :=
  match lo, hi with
  | .usize a, .usize b => .ok (.seq ((List.range' a (if incl then b + 1 - a else b - a)).map .usize))
  | .i32 a, .i32 b => .ok (.seq ((List.range' a (if incl then b + 1 - a else b - a)).map .i32))
  | _, _ => .error .stuck

/-! ### Library functions -/

def ElemTy.size (T : Target) : ElemTy → Nat
  | .u8 => 1
  | .u32 => 4
  | .vec => T.vecSize

/-- The items of `x.flatten()`. -/
def flattenVals : List Val → R (List Val)
  | [] => .ok []
  | .seq xs :: rest => (flattenVals rest).map (xs ++ ·)
  | _ :: _ => .error .stuck

def evalPrim (T : Target) (p : Prim) (args : List Val) : R Val :=
  match p, args with
  | .len, [.seq xs] => .ok (.usize xs.length)
  | .enumerate, [.seq xs] => .ok (.seq (xs.zipIdx.map fun (x, i) => .tup [.usize i, x]))
  | .zip, [.seq xs, .seq ys] => .ok (.seq (List.zipWith (fun x y => .tup [x, y]) xs ys))
  | .rev, [.seq xs] => .ok (.seq xs.reverse)
  | .flatten, [.seq xs] => (flattenVals xs).map .seq
  | .chunks, [.seq xs, .usize n] => (up (Verif.chunks xs n)).map fun cs => .seq (cs.map .seq)
  | .chunksExact, [.seq xs, .usize n] => (up (Verif.chunksExact xs n)).map fun cs => .seq (cs.map .seq)
  | .min, [.usize a, .usize b] => .ok (.usize (min a b))
  | .wrappingAdd, [.u32 a, .u32 b] => .ok (.u32 (a + b))
  | .withCapacity t, [.usize n] => (up (T.reserve (t.size T) n)).map fun _ => .seq []
  | .vecRepeat t, [v, .usize n] => (up (T.reserve (t.size T) n)).map fun _ => .seq (List.replicate n v)
  | .unwrapOrDefault, [.enum .Some [v]] => .ok v
  | .unwrapOrDefault, [.enum .None []] => .ok (.seq [])
  | _, _ => .error .stuck

/-- The new value of the place and the result. -/
def evalMutPrim (p : MutPrim) (x : Val) (args : List Val) : R (Val × Val) :=
  match p, x, args with
  | .push, .seq xs, [y] => .ok (.seq (xs ++ [y]), .unit)
  | .clear, .seq _, [] => .ok (.seq [], .unit)
  | .splitOff, .seq xs, [.usize n] =>
    if n ≤ xs.length then .ok (.seq (xs.take n), .seq (xs.drop n)) else .error (.panic .index)
  | .copyFromSlice, .seq xs, [.seq ys] =>
    if ys.length = xs.length then .ok (.seq ys, .unit) else .error (.panic .sliceLen)
  | .append, .seq xs, [.seq ys] => .ok (.seq (xs ++ ys), .unit)
  | .write pre post, .str s, [.str t] => .ok (.str (s ++ (pre ++ t ++ post)), .enum .Ok [.unit])
  | _, _, _ => .error .stuck

/-! ### Patterns -/

mutual
/-- The variables bound when `v` matches the pattern. -/
def matchPat : Pat → Val → Option (List (Id × Val))
  | .wild, _ => some []
  | .var x, v => some [(x, v)]
  | .int t n, v =>
    match t, v with
    | .usize, .usize m => if m = n then some [] else none
    | _, _ => none
  | .ctor c ps, v =>
    match v with
    | .enum c' vs => if c = c' then matchPats ps vs else none
    | _ => none
  | .tup ps, v =>
    match v with
    | .tup vs => matchPats ps vs
    | _ => none
def matchPats : List Pat → List Val → Option (List (Id × Val))
  | [], [] => some []
  | p :: ps, v :: vs => (matchPat p v).bind fun bs => (matchPats ps vs).map fun bs' => bs' ++ bs
  | _, _ => none
end

/-! ### Loops -/

/-- `while c { body }` -/
def whileLoop (c body : E Val) : Nat → E Val
  | 0 => fun _ => .error .fuel
  | n + 1 => fun env =>
    c env >>= fun (r, env') =>
      match r with
      | .val (.bool true) =>
        inScope body env' >>= fun (r, env'') =>
          match r with
          | .ret v => .ok (.ret v, env'')
          | .val _ | .cont => whileLoop c body n env''
      | .val (.bool false) => .ok (.val .unit, env')
      | .val _ => .error .stuck
      | .ret v => .ok (.ret v, env')
      | .cont => .ok (.cont, env')

/-- `for x in xs { step x }` -/
def forLoop {α : Type} (step : α → E Val) : List α → E Val
  | [] => fun env => .ok (.val .unit, env)
  | x :: xs => fun env =>
    inScope (step x) env >>= fun (r, env') =>
      match r with
      | .ret v => .ok (.ret v, env')
      | .val _ | .cont => forLoop step xs env'

/-- One iteration of a loop over `place.iter_mut()`: `x` is element `k` of the place, changed by the body and stored back. -/
def mutStep (p : Path) (x : Id) (bs : List (Id × Val)) (body : E Val) (k : Nat) : E Val := fun env =>
  readPath (p.push (.idx k)) env >>= fun (r, _) =>
    match r with
    | .val cur =>
      body ((x, cur) :: bs ++ env) >>= fun (c, env1) =>
        getVar x env1 >>= fun new =>
          writePath (p.push (.idx k)) new (env1.drop (env1.length - env.length)) >>= fun (_, env2) => .ok (c, env2)
    | _ => .error .stuck

/-- `map`, in order -/
def mapLoop (step : Val → E Val) : List Val → E (List Val)
  | [] => pure []
  | x :: xs => do
    let y ← inScope (step x)
    let ys ← mapLoop step xs
    return y :: ys

/-! ### Expressions -/

/-- What the evaluation of an expression depends on. -/
structure Ctx where
  T : Target
  fuel : Nat
  const : Const → R Val
  /-- the parameters of a function -/
  sig : Fn → List Mode
  /-- a call: the result and the final values of the `&mut` parameters -/
  call : Fn → List Val → R (Val × List Val)

/-- An evaluated argument. -/
inductive Arg where
  | val (v : Val)
  | place (p : Path)

/-- The values the callee gets. -/
def readArgs : List Arg → E (List Val)
  | [] => pure []
  | .val v :: rest => do
    let vs ← readArgs rest
    return v :: vs
  | .place p :: rest => do
    let v ← readPath p
    let vs ← readArgs rest
    return v :: vs

/-- Copies the final values of the `&mut` parameters back. -/
def writeArgs : List Arg → List Val → E Val
  | [], [] => pure .unit
  | .val _ :: rest, outs => writeArgs rest outs
  | .place p :: rest, out :: outs => do
    let _ ← writePath p out
    writeArgs rest outs
  | _, _ => stuck

def bindPat (p : Pat) (v : Val) : E Val :=
  match matchPat p v with
  | some bs => push bs
  | none => stuck

def ofSeq : Val → E (List Val)
  | .seq xs => pure xs
  | _ => stuck

def ofUsize : Val → E Nat
  | .usize n => pure n
  | _ => stuck

def branch (v : Val) (a b : E Val) : E Val :=
  match v with
  | .bool c => if c then a else b
  | _ => stuck

mutual

def eval (K : Ctx) : Expr → E Val
  | .int t n => pure (mkInt t n)
  | .str s => pure (.str s)
  | .unit => pure .unit
  | .var x => readPath ⟨x, []⟩
  | .const c => lift (K.const c)
  | .not e => do
    let v ← eval K e
    lift (evalNot v)
  | .bin op a b => do
    let x ← eval K a
    let y ← eval K b
    lift (evalBin K.T op x y)
  | .andAlso a b => do
    let v ← eval K a
    branch v (eval K b) (pure (.bool false))
  | .cast e t => do
    let v ← eval K e
    lift (evalCast K.T t v)
  | .from t e => do
    let v ← eval K e
    lift (evalFrom t v)
  | .field e f => do
    let v ← eval K e
    lift (getAcc v (.fld f))
  | .index e i => do
    let v ← eval K e
    let n ← eval K i
    let n ← ofUsize n
    lift (getAcc v (.idx n))
  | .slice e lo hi => do
    let v ← eval K e
    let a ← eval K lo
    let a ← ofUsize a
    let b ← eval K hi
    let b ← ofUsize b
    lift (getAcc v (.rng a b))
  | .sliceTo e hi => do
    let v ← eval K e
    let b ← eval K hi
    let b ← ofUsize b
    lift (getAcc v (.rng 0 b))
  | .sliceFrom e lo => do
    let v ← eval K e
    let a ← eval K lo
    let a ← ofUsize a
    let xs ← ofSeq v
    lift (getAcc v (.rng a xs.length))
  | .range lo hi => do
    let a ← eval K lo
    let b ← eval K hi
    lift (evalRange false a b)
  | .rangeIncl lo hi => do
    let a ← eval K lo
    let b ← eval K hi
    lift (evalRange true a b)
  | .array es => do
    let vs ← evalList K es
    return .seq vs
  | .repeat e n => do
    let v ← eval K e
    let n ← eval K n
    let n ← ofUsize n
    return .seq (List.replicate n v)
  | .tup es => do
    let vs ← evalList K es
    return .tup vs
  | .struct s fs es => do
    let vs ← evalList K es
    return .struct s (fs.zip vs)
  | .ctor c es => do
    let vs ← evalList K es
    return .enum c vs
  | .call f args => do
    let as ← evalArgs K (K.sig f) args
    let vs ← readArgs as
    let (v, outs) ← lift (K.call f vs)
    let _ ← writeArgs as outs
    return v
  | .prim p args => do
    let vs ← evalList K args
    lift (evalPrim K.T p vs)
  | .mutPrim p x args => do
    let path ← evalPlace K x
    let v ← readPath path
    let vs ← evalList K args
    let (v', r) ← lift (evalMutPrim p v vs)
    let _ ← writePath path v'
    return r
  | .appendFrom x y => do
    let p ← evalPlace K x
    let q ← evalPlace K y
    let v ← readPath p
    let w ← readPath q
    let (v', r) ← lift (evalMutPrim .append v [w])
    let _ ← writePath p v'
    let _ ← writePath q (.seq [])
    return r
  | .map e p body => do
    let v ← eval K e
    let xs ← ofSeq v
    let ys ← mapLoop (fun x => do let _ ← bindPat p x; eval K body) xs
    return .seq ys
  | .ite c a b => do
    let v ← eval K c
    branch v (eval K a) (eval K b)
  | .match e ps bodies => do
    let v ← eval K e
    evalMatch K v ps bodies
  | .block ss e => inScope do
    let _ ← evalList K ss
    eval K e
  | .let p e => do
    let v ← eval K e
    bindPat p v
  | .decl x => push [(x, .unit)]
  | .assign x e => do
    let v ← eval K e
    let p ← evalPlace K x
    writePath p v
  | .assignOp op x e => do
    let v ← eval K e
    let p ← evalPlace K x
    let w ← readPath p
    let r ← lift (evalBin K.T op w v)
    writePath p r
  | .return e => do
    let v ← eval K e
    fun env => .ok (.ret v, env)
  | .continue => fun env => .ok (.cont, env)
  | .try e => do
    let v ← eval K e
    match v with
    | .enum .Ok [w] => pure w
    | .enum .Err [w] => fun env => .ok (.ret (.enum .Err [w]), env)
    | _ => stuck
  | .while c body => whileLoop (eval K c) (eval K body) K.fuel
  | .for p e body => do
    let v ← eval K e
    let xs ← ofSeq v
    forLoop (fun x => do let _ ← bindPat p x; eval K body) xs
  | .forMut x place body => do
    let p ← evalPlace K place
    let v ← readPath p
    let xs ← ofSeq v
    forLoop (mutStep p x [] (eval K body)) (List.range xs.length)
  | .forMutEnum i x place body => do
    let p ← evalPlace K place
    let v ← readPath p
    let xs ← ofSeq v
    forLoop (fun k => mutStep p x [(i, .usize k)] (eval K body) k) (List.range xs.length)
  | .forMutZip x pat place e body => do
    let p ← evalPlace K place
    let v ← readPath p
    let xs ← ofSeq v
    let w ← eval K e
    let ys ← ofSeq w
    forLoop (fun ky =>
        match matchPat pat ky.2 with
        | some bs => mutStep p x bs (eval K body) ky.1
        | none => stuck)
      ((List.range xs.length).zip ys)

/-- The place an expression stands for. -/
def evalPlace (K : Ctx) : Expr → E Path
  | .var x => pure ⟨x, []⟩
  | .field e f => do
    let p ← evalPlace K e
    return p.push (.fld f)
  | .index e i => do
    let p ← evalPlace K e
    let n ← eval K i
    let n ← ofUsize n
    return p.push (.idx n)
  | .slice e lo hi => do
    let p ← evalPlace K e
    let a ← eval K lo
    let a ← ofUsize a
    let b ← eval K hi
    let b ← ofUsize b
    return p.push (.rng a b)
  | .sliceTo e hi => do
    let p ← evalPlace K e
    let b ← eval K hi
    let b ← ofUsize b
    return p.push (.rng 0 b)
  | .sliceFrom e lo => do
    let p ← evalPlace K e
    let a ← eval K lo
    let a ← ofUsize a
    let v ← readPath p
    let xs ← ofSeq v
    return p.push (.rng a xs.length)
  | _ => stuck

/-- Expressions in order. -/
def evalList (K : Ctx) : List Expr → E (List Val)
  | [] => pure []
  | e :: es => do
    let v ← eval K e
    let vs ← evalList K es
    return v :: vs

/-- Arguments in order; for a `&mut` parameter only the place is determined (two-phase borrow). -/
def evalArgs (K : Ctx) : List Mode → List Expr → E (List Arg)
  | [], [] => pure []
  | .val :: ms, e :: es => do
    let v ← eval K e
    let as ← evalArgs K ms es
    return .val v :: as
  | .mutRef :: ms, e :: es => do
    let p ← evalPlace K e
    let as ← evalArgs K ms es
    return .place p :: as
  | _, _ => stuck

/-- The first arm that matches. -/
def evalMatch (K : Ctx) (v : Val) : List Pat → List Expr → E Val
  | p :: ps, e :: es =>
    match matchPat p v with
    | some bs => inScope do
      let _ ← push bs
      eval K e
    | none => evalMatch K v ps es
  | _, _ => stuck

end

/-! ### Functions -/

/-- Runs a function body on arguments: the result and the final values of the `&mut` parameters. -/
def runBody (K : Ctx) (d : FnDef) (args : List Val) : R (Val × List Val) :=
  eval K d.body ((d.params.map (·.1)).zip args) >>= fun (c, env) =>
    ((d.params.filter (·.2 = .mutRef)).mapM fun p => getVar p.1 env) >>= fun outs =>
      match c with
      | .val v => .ok (v, outs)
      | .ret v => .ok (v, outs)
      | .cont => .error .stuck

/-- The value of a constant; its initialiser refers to nothing. -/
def constVal (T : Target) (P : Program) (c : Const) : R Val :=
  eval { T := T, fuel := 0, const := fun _ => .error .stuck, sig := fun _ => [], call := fun _ _ => .error .stuck }
      (P.const c) [] >>= fun (r, _) =>
    match r with
    | .val v => .ok v
    | _ => .error .stuck

/-- A call of function `f` of the program `P` on the target `T`. -/
def call (T : Target) (P : Program) (fuel : Nat) : Nat → Fn → List Val → R (Val × List Val)
  | 0, _, _ => .error .fuel
  | depth + 1, f, args =>
    runBody { T := T, fuel := fuel, const := constVal T P, sig := fun f => (P.fn f).params.map (·.2),
              call := call T P fuel depth } (P.fn f) args

end Verif.Source
