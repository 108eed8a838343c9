import Verif.Text.Parse
import Verif.Text.NameTable
import Verif.Source.Syntax

/-!
From trees to the program: names and methods are resolved, macros are already expanded, and every integer literal gets its type, by
unification. The rules of typing are only those that are needed to find the types of literals and the meaning of `a.f(b)`; that the
program is correctly typed is left to the Rust compiler.
-/

set_option linter.constructorNameAsVariable false

namespace Verif.Text
open Verif.Source (IntTy ElemTy BinOp Prim MutPrim Pat Expr Mode FnDef Id Fn Ctor Const Struct)

/-! ### Names -/

/-- The first entry under a name. -/
def find {α : Type} (n : Nat) : List (Nat × α) → Option α
  | [] => none
  | (m, a) :: l => if m == n then some a else find n l

/-- The number of characters of a name. -/
def nameLength : Nat → Nat → Nat
  | 0, _ => 0
  | k + 1, n => if n == 0 then 0 else nameLength k (n / 256) + 1

/-- `a_b` -/
def joinName (a b : Nat) : Nat := (a * 256 + 95) * 256 ^ nameLength 64 b + b

example : joinName c!"sha256" c!"new" = c!"sha256_new" := by decide

/-- The names of variables and fields, of structures, of variants (`Enum_Variant`), of constants (`module_NAME`) and of functions
(`module_function` or `module_Type_function`). -/
def idNames : List (Nat × Id) := names% Verif.Source.Id
def structNames : List (Nat × Struct) := names% Verif.Source.Struct
def ctorNames : List (Nat × Ctor) := names% Verif.Source.Ctor
def constNames : List (Nat × Const) := names% Verif.Source.Const
def fnNames : List (Nat × Fn) := names% Verif.Source.Fn

def intNames : List (Nat × IntTy) := [(c!"u8", .u8), (c!"u32", .u32), (c!"u64", .u64), (c!"usize", .usize)]

def binOps : List (Nat × BinOp) :=
  [(c!"+", .add), (c!"-", .sub), (c!"*", .mul), (c!"/", .div), (c!"%", .rem), (c!"&", .and), (c!"|", .or), (c!"^", .xor),
    (c!"<<", .shl), (c!">>", .shr), (c!"==", .eq), (c!"!=", .ne), (c!"<", .lt), (c!"<=", .le), (c!">", .gt), (c!">=", .ge)]

/-! ### What is declared -/

/-- A function of the crate. `owner` is the type whose method it is, 0 if there is none. -/
structure Sig where
  mod : Nat
  owner : Nat
  name : Nat
  params : List (Nat × RMode × RTy)
  ret : RTy
deriving Repr

structure Env where
  mods : List Nat
  /-- module, and the names it imports -/
  uses : List (Nat × List (Nat × List Nat))
  /-- module, name, type -/
  aliases : List (Nat × Nat × RTy)
  /-- module, name, type -/
  consts : List (Nat × Nat × RTy)
  /-- name, module, fields -/
  structs : List (Nat × Nat × List (Nat × RTy))
  /-- name, module, variants -/
  enums : List (Nat × Nat × List (Nat × List RTy))
  fns : List Sig
deriving Repr

/-- The entry of a module and a name. -/
def find2 {α : Type} (m n : Nat) : List (Nat × Nat × α) → Option α
  | [] => none
  | (m', n', a) :: l => if m' == m && n' == n then some a else find2 m n l

def findFn (m o n : Nat) : List Sig → Option Sig
  | [] => none
  | s :: l => if s.mod == m && s.owner == o && s.name == n then some s else findFn m o n l

/-- The module and the path there of a path used in module `m`. -/
def resolve (env : Env) (m : Nat) (p : List Nat) : Nat × List Nat :=
  let p := match p with
    | [] => []
    | h :: r => match (find m env.uses).bind (find h) with
      | some q => q ++ r
      | none => h :: r
  let p := match p with
    | h :: r => if h == c!"crate" then r else p
    | [] => []
  match p with
  | h :: x :: r => if env.mods.elem h then (h, x :: r) else (m, p)
  | _ => (m, p)

/-! ### Types -/

/-- Types. Arrays, slices, vectors and iterators are `seq`. -/
inductive Ty where
  | var (i : Nat)
  | con (n : Nat) (args : List Ty)
deriving Repr

def tUnit : Ty := .con c!"unit" []
def tBool : Ty := .con c!"bool" []
def tStr : Ty := .con c!"str" []
def tUsize : Ty := .con c!"usize" []
def tFormatter : Ty := .con c!"Formatter" []
def tSeq (t : Ty) : Ty := .con c!"seq" [t]
def tOption (t : Ty) : Ty := .con c!"Option" [t]
def tResult (t e : Ty) : Ty := .con c!"Result" [t, e]
def tFmtResult : Ty := tResult tUnit (.con c!"fmt::Error" [])

/-- `Self` is the type `owner`. -/
def selfPath (owner : Nat) : List Nat → List Nat
  | h :: r => if h == c!"Self" then owner :: r else h :: r
  | [] => []

mutual

/-- The type that is written in module `m`, in the implementation of `owner`. -/
def typeOf (env : Env) : Nat → Nat → Nat → RTy → Option Ty
  | 0, _, _, _ => none
  | _ + 1, _, _, .unit => some tUnit
  | k + 1, m, o, .seq t => (typeOf env k m o t).map tSeq
  | k + 1, m, o, .path p as =>
    match selfPath o p, as with
    | [n], [] =>
      if (find n intNames).isSome then some (.con n [])
      else if n == c!"bool" then some tBool
      else if n == c!"str" then some tStr
      else named env k m [n]
    | [n], as =>
      if n == c!"Vec" then
        match typesOf env k m o as with
        | some [t] => some (tSeq t)
        | _ => none
      else if n == c!"Option" || n == c!"Result" then (typesOf env k m o as).map (.con n ·)
      else none
    | p, [] =>
      if p = [c!"fmt", c!"Formatter"] then some tFormatter
      else if p = [c!"fmt", c!"Result"] then some tFmtResult
      else named env k m p
    | _, _ => none

def typesOf (env : Env) : Nat → Nat → Nat → List RTy → Option (List Ty)
  | 0, _, _, _ => none
  | _ + 1, _, _, [] => some []
  | k + 1, m, o, t :: ts =>
    match typeOf env k m o t, typesOf env k m o ts with
    | some t, some ts => some (t :: ts)
    | _, _ => none

/-- A type of the crate. -/
def named (env : Env) : Nat → Nat → List Nat → Option Ty
  | 0, _, _ => none
  | k + 1, m, p =>
    match resolve env m p with
    | (m', [n]) =>
      match find2 m' n env.aliases with
      | some t => typeOf env k m' 0 t
      | none => if (find n env.structs).isSome || (find n env.enums).isSome then some (.con n []) else none
    | _ => none

end

/-- What is known about a variable for types. -/
inductive Cell where
  | any
  /-- some integer type -/
  | int
  | is (t : Ty)
deriving Repr

/-- The variables for types: how many there are, and what is known about them, the last one first. -/
structure Vars where
  count : Nat
  cells : List Cell
deriving Repr

def Vars.get (s : Vars) (i : Nat) : Cell := s.cells.getD (s.count - 1 - i) .any

def Vars.set (s : Vars) (i : Nat) (c : Cell) : Vars := { s with cells := s.cells.set (s.count - 1 - i) c }

/-- What a type is known to be. -/
def Vars.prune (s : Vars) : Nat → Ty → Ty
  | 0, t => t
  | _ + 1, .con n as => .con n as
  | k + 1, .var i => match s.get i with
    | .is t => s.prune k t
    | _ => .var i

/-- Computations that can fail and know about variables for types. -/
def M (α : Type) := Vars → Option (α × Vars)

namespace M

def pure {α : Type} (a : α) : M α := fun s => some (a, s)

def bind {α β : Type} (x : M α) (f : α → M β) : M β := fun s =>
  match x s with
  | none => none
  | some (a, s') => f a s'

instance : Monad M where
  pure := pure
  bind := bind

def fail {α : Type} : M α := fun _ => none

def lift {α : Type} : Option α → M α
  | none => fail
  | some a => pure a

end M

/-- A new variable for a type. -/
def fresh : M Ty := fun s => some (.var s.count, ⟨s.count + 1, .any :: s.cells⟩)

def setCell (i : Nat) (c : Cell) : M Unit := fun s => some ((), s.set i c)

def prune (t : Ty) : M Ty := fun s => some (s.prune 64 t, s)

def cell (i : Nat) : M Cell := fun s => some (s.get i, s)

/-- An integer type. -/
def isInt (n : Nat) (as : List Ty) : Bool := (find n intNames).isSome && as.isEmpty

mutual

/-- Makes two types equal. -/
def unify : Nat → Ty → Ty → M Unit
  | 0, _, _ => M.fail
  | k + 1, a, b => do
    let a ← prune a
    let b ← prune b
    match a, b with
    | .var i, .var j =>
      if i == j then M.pure ()
      else match ← cell i with
        | .any => setCell i (.is b)
        | _ => setCell j (.is a)
    | .var i, .con n as => bindVar i n as
    | .con n as, .var i => bindVar i n as
    | .con n as, .con m bs => if n == m then unifyAll k as bs else M.fail

def unifyAll : Nat → List Ty → List Ty → M Unit
  | 0, _, _ => M.fail
  | _ + 1, [], [] => M.pure ()
  | k + 1, a :: as, b :: bs => do
    unify k a b
    unifyAll k as bs
  | _ + 1, _, _ => M.fail

/-- Makes a variable equal to a type. -/
def bindVar (i n : Nat) (as : List Ty) : M Unit := do
  match ← cell i with
  | .int => if isInt n as then setCell i (.is (.con n as)) else M.fail
  | _ => setCell i (.is (.con n as))

end

def same (a b : Ty) : M Unit := unify 64 a b

/-- Makes a type an integer type. -/
def mustInt (t : Ty) : M Unit := do
  match ← prune t with
  | .con n as => if isInt n as then M.pure () else M.fail
  | .var i => setCell i .int

/-! ### Expressions -/

/-- Where an expression is. `final` is what is known about the variables for types at the end of the function. It is not known when a
function is looked at for the first time, and what that makes is thrown away. -/
structure Cx where
  env : Env
  mod : Nat
  owner : Nat
  ret : Ty
  final : Option Vars

/-- The type of an integer literal; `i32` when nothing is known. -/
def Cx.intTy (c : Cx) (t : Ty) : M IntTy :=
  match c.final with
  | none => M.pure .u8
  | some s => match s.prune 64 t with
    | .con n _ => M.lift (find n intNames)
    | .var _ => M.pure .i32

/-- The type of the elements of a vector. -/
def Cx.elemTy (c : Cx) (t : Ty) : M ElemTy :=
  match c.final with
  | none => M.pure .u8
  | some s => match s.prune 64 t with
    | .con n _ =>
      if n == c!"u8" then M.pure .u8 else if n == c!"u32" then M.pure .u32 else if n == c!"seq" then M.pure .vec else M.fail
    | .var _ => M.fail

/-- The variables in scope and their types. -/
abbrev Scope := List (Nat × Ty)

def idOf (n : Nat) : M Id := M.lift (find n idNames)

def Cx.typeOf (c : Cx) (t : RTy) : M Ty := M.lift (Text.typeOf c.env 32 c.mod c.owner t)

/-- The type that is written in another module. -/
def Cx.typeIn (c : Cx) (m o : Nat) (t : RTy) : M Ty := M.lift (Text.typeOf c.env 32 m o t)

def Cx.typesIn (c : Cx) (m o : Nat) (ts : List RTy) : M (List Ty) := M.lift (Text.typesOf c.env 32 m o ts)

/-- A variant: its name, the types of its arguments, its type. -/
def Cx.variant (c : Cx) (p : List Nat) : M (Option (Ctor × List Ty × Ty)) := do
  match p with
  | [n] =>
    if n == c!"Some" then
      let a ← fresh
      M.pure (some (.Some, [a], tOption a))
    else if n == c!"None" then
      let a ← fresh
      M.pure (some (.None, [], tOption a))
    else if n == c!"Ok" then
      let a ← fresh
      let b ← fresh
      M.pure (some (.Ok, [a], tResult a b))
    else if n == c!"Err" then
      let a ← fresh
      let b ← fresh
      M.pure (some (.Err, [b], tResult a b))
    else M.pure none
  | _ =>
    match resolve c.env c.mod (selfPath c.owner p) with
    | (_, [n, v]) =>
      match find n c.env.enums with
      | none => M.pure none
      | some (m, vs) =>
        match find v vs, find (joinName n v) ctorNames with
        | some ts, some k =>
          let ts ← c.typesIn m 0 ts
          M.pure (some (k, ts, .con n []))
        | _, _ => M.pure none
    | _ => M.pure none

mutual

/-- A pattern for values of type `t`; the variables it binds come first in the scope. -/
def Cx.pat (c : Cx) : Nat → Scope → RPat → Ty → M (Pat × Scope)
  | 0, _, _, _ => M.fail
  | _ + 1, g, .wild, _ => M.pure (.wild, g)
  | _ + 1, g, .var x, t => do
    let i ← idOf x
    M.pure (.var i, (x, t) :: g)
  | _ + 1, g, .int n, t => do
    mustInt t
    let it ← c.intTy t
    M.pure (.int it n, g)
  | k + 1, g, .tup ps, t => do
    let (qs, ts, g) ← c.patsNew k g ps
    same t (.con c!"tup" ts)
    M.pure (.tup qs, g)
  | k + 1, g, .ctor p ps, t => do
    match ← c.variant p with
    | none => M.fail
    | some (v, ts, u) =>
      same t u
      let (qs, g) ← c.pats k g ps ts
      M.pure (.ctor v qs, g)

def Cx.pats (c : Cx) : Nat → Scope → List RPat → List Ty → M (List Pat × Scope)
  | 0, _, _, _ => M.fail
  | _ + 1, g, [], [] => M.pure ([], g)
  | k + 1, g, p :: ps, t :: ts => do
    let (q, g) ← c.pat k g p t
    let (qs, g) ← c.pats k g ps ts
    M.pure (q :: qs, g)
  | _ + 1, _, _, _ => M.fail

/-- Patterns for values of types to be found. -/
def Cx.patsNew (c : Cx) : Nat → Scope → List RPat → M (List Pat × List Ty × Scope)
  | 0, _, _ => M.fail
  | _ + 1, g, [] => M.pure ([], [], g)
  | k + 1, g, p :: ps => do
    let t ← fresh
    let (q, g) ← c.pat k g p t
    let (qs, ts, g) ← c.patsNew k g ps
    M.pure (q :: qs, t :: ts, g)

end

/-- Whether an expression is a place: a variable, or a part of one. -/
def isPlace (g : Scope) : RExp → Bool
  | .path [x] => (find x g).isSome
  | .field e _ => isPlace g e
  | .index e _ => isPlace g e
  | .same e => isPlace g e
  | _ => false

def mustPlace (g : Scope) (e : RExp) : M Unit := if isPlace g e then M.pure () else M.fail

/-- The place in `&mut e`, or the variable `e`, which is then a mutable reference. -/
def unMut : RExp → M RExp
  | .refMut e => M.pure e
  | .path [x] => M.pure (.path [x])
  | _ => M.fail

/-- The arguments; those that are passed by `&mut` are places. -/
def places (g : Scope) : List (Nat × RMode × RTy) → List RExp → M (List RExp)
  | (_, .mutRef, _) :: ps, e :: es => do
    let e ← unMut e
    mustPlace g e
    let es ← places g ps es
    M.pure (e :: es)
  | (_, .val, _) :: ps, e :: es => do
    let es ← places g ps es
    M.pure (e :: es)
  | [], [] => M.pure []
  | _, _ => M.fail

/-- The parts of a format string before and after its only `{}`. -/
def splitFormat : List Nat → Option (List Nat × List Nat)
  | 123 :: 125 :: r => if r.elem 123 || r.elem 125 then none else some ([], r)
  | c :: r => if c == 123 || c == 125 then none else (splitFormat r).map fun p => (c :: p.1, p.2)
  | [] => none

def text (cs : List Nat) : String := String.ofList (cs.map Char.ofNat)

/-- Whether a statement leaves the block. -/
def leaves : RExp → Bool
  | .«return» _ => true
  | .«continue» => true
  | _ => false

def fnName (s : Sig) : Nat := if s.owner == 0 then joinName s.mod s.name else joinName (joinName s.mod s.owner) s.name

/-- Methods that do not change values: conversions between arrays, slices, vectors and iterators, and copies. -/
def isConversion (f : Nat) : Bool :=
  f == c!"iter" || f == c!"into_iter" || f == c!"collect" || f == c!"to_vec" || f == c!"clone"

/-- `f(es)` by path: a function of the crate. -/
def Cx.function (c : Cx) (p : List Nat) : M Sig :=
  match resolve c.env c.mod p with
  | (m, [n]) => M.lift (findFn m 0 n c.env.fns)
  | (m, [o, n]) => M.lift (findFn m o n c.env.fns)
  | _ => M.fail

/-- Takes the elements of a list of names in the order of another one. -/
def sameNames (as bs : List Nat) : Bool := as.all bs.elem && bs.all as.elem && as.length == bs.length

mutual

/-- An expression of type `t`. `&mut e` occurs only as an argument: a mutable reference is never kept. -/
def Cx.ex (c : Cx) : Nat → Scope → RExp → Ty → M Expr
  | 0, _, _, _ => M.fail
  | k + 1, g, e, t => match e with
    | .int n => do
      mustInt t
      let it ← c.intTy t
      M.pure (.int it n)
    | .str cs => do
      same t tStr
      M.pure (.str (text cs))
    | .unit => do
      same t tUnit
      M.pure .unit
    | .same e => c.ex k g e t
    | .refMut _ => M.fail
    | .path p => c.name g p t
    | .«not» e => do
      let e ← c.ex k g e t
      M.pure (.not e)
    | .and a b => do
      same t tBool
      let a ← c.ex k g a tBool
      let b ← c.ex k g b tBool
      M.pure (.andAlso a b)
    | .bin op a b => do
      let o ← M.lift (find op binOps)
      match o with
      | .eq | .ne | .lt | .le | .gt | .ge =>
        same t tBool
        let u ← fresh
        let a ← c.ex k g a u
        let b ← c.ex k g b u
        M.pure (.bin o a b)
      | .shl | .shr =>
        let a ← c.ex k g a t
        let u ← fresh
        let b ← c.ex k g b u
        M.pure (.bin o a b)
      | _ =>
        let a ← c.ex k g a t
        let b ← c.ex k g b t
        M.pure (.bin o a b)
    | .cast e ty => do
      let u ← fresh
      let e ← c.ex k g e u
      let v ← c.typeOf ty
      same t v
      match v with
      | .con n _ =>
        let it ← M.lift (find n intNames)
        M.pure (.cast e it)
      | _ => M.fail
    | .field e f => do
      let u ← fresh
      let e ← c.ex k g e u
      match ← prune u with
      | .con n _ =>
        let (m, fs) ← M.lift (find n c.env.structs)
        let ft ← M.lift (find f fs)
        let ft ← c.typeIn m 0 ft
        same t ft
        let i ← idOf f
        M.pure (.field e i)
      | _ => M.fail
    | .index e (.range (some lo) (some hi) false) => do
      let a ← fresh
      same t (tSeq a)
      let e ← c.ex k g e t
      let lo ← c.ex k g lo tUsize
      let hi ← c.ex k g hi tUsize
      M.pure (.slice e lo hi)
    | .index e (.range none (some hi) false) => do
      let a ← fresh
      same t (tSeq a)
      let e ← c.ex k g e t
      let hi ← c.ex k g hi tUsize
      M.pure (.sliceTo e hi)
    | .index e (.range (some lo) none false) => do
      let a ← fresh
      same t (tSeq a)
      let e ← c.ex k g e t
      let lo ← c.ex k g lo tUsize
      M.pure (.sliceFrom e lo)
    | .index e i => do
      let e ← c.ex k g e (tSeq t)
      let i ← c.ex k g i tUsize
      M.pure (.index e i)
    | .range (some lo) (some hi) incl => do
      let a ← fresh
      same t (tSeq a)
      let lo ← c.ex k g lo a
      let hi ← c.ex k g hi a
      M.pure (if incl then .rangeIncl lo hi else .range lo hi)
    | .range _ _ _ => M.fail
    | .array es => do
      let a ← fresh
      same t (tSeq a)
      let es ← c.elems k g es a
      M.pure (.array es)
    | .«repeat» e n => do
      let a ← fresh
      same t (tSeq a)
      let e ← c.ex k g e a
      let n ← c.ex k g n tUsize
      M.pure (.repeat e n)
    | .vecRepeat e n => do
      let a ← fresh
      same t (tSeq a)
      let e ← c.ex k g e a
      let n ← c.ex k g n tUsize
      let et ← c.elemTy a
      M.pure (.prim (.vecRepeat et) [e, n])
    | .struct p fs es =>
      match resolve c.env c.mod (selfPath c.owner p) with
      | (_, [n]) => do
        let (m, fts) ← M.lift (find n c.env.structs)
        let s ← M.lift (find n structNames)
        if sameNames fs (fts.map Prod.fst) then
          same t (.con n [])
          let (is, es) ← c.fieldValues k g m fts fs es
          M.pure (.struct s is es)
        else M.fail
      | _ => M.fail
    | .call p es => c.call k g (selfPath c.owner p) es t
    | .method e f es => c.method k g e f es t
    | .ite x a none => do
      same t tUnit
      let x ← c.ex k g x tBool
      let a ← c.ex k g a tUnit
      M.pure (.ite x a .unit)
    | .ite x a (some b) => do
      let x ← c.ex k g x tBool
      let a ← c.ex k g a t
      let b ← c.ex k g b t
      M.pure (.ite x a b)
    | .«match» e ps es => do
      let u ← fresh
      let e ← c.ex k g e u
      let (ps, es) ← c.arms k g ps es u t
      M.pure (.match e ps es)
    | .block ss none => do
      let (ss, _) ← c.stmts k g ss
      if (match e with
        | .block ss _ => ss.any leaves
        | _ => false) then M.pure (.block ss .unit)
      else
        same t tUnit
        M.pure (.block ss .unit)
    | .block ss (some e) => do
      let (ss, g) ← c.stmts k g ss
      let e ← c.ex k g e t
      M.pure (.block ss e)
    | .«let» _ _ _ => M.fail
    | .assign op x e => do
      same t tUnit
      mustPlace g x
      let u ← fresh
      let x ← c.ex k g x u
      match op with
      | none =>
        let e ← c.ex k g e u
        M.pure (.assign x e)
      | some op =>
        let o ← M.lift (find op binOps)
        match o with
        | .shl | .shr =>
          let v ← fresh
          let e ← c.ex k g e v
          M.pure (.assignOp o x e)
        | _ =>
          let e ← c.ex k g e u
          M.pure (.assignOp o x e)
    | .«return» e => do
      let e ← c.ex k g e c.ret
      M.pure (.return e)
    | .«continue» => M.pure .continue
    | .«try» e => do
      let a ← fresh
      let b ← fresh
      same c.ret (tResult a b)
      let e ← c.ex k g e (tResult t b)
      M.pure (.try e)
    | .«while» x body => do
      same t tUnit
      let x ← c.ex k g x tBool
      let body ← c.ex k g body tUnit
      M.pure (.while x body)
    | .«for» p e body => do
      same t tUnit
      c.loop k g p e body
    | .write x s e => do
      same t tFmtResult
      mustPlace g x
      let x ← c.ex k g x tFormatter
      let e ← c.ex k g e tStr
      let (pre, post) ← M.lift (splitFormat s)
      M.pure (.mutPrim (.write (text pre) (text post)) x [e])
    | .closure _ _ => M.fail

/-- A variable, a constant, or a variant without arguments. -/
def Cx.name (c : Cx) (g : Scope) (p : List Nat) (t : Ty) : M Expr :=
  match p with
  | [x] =>
    match find x g with
    | some u => do
      same t u
      let i ← idOf x
      M.pure (.var i)
    | none => c.global p t
  | _ => c.global p t

def Cx.global (c : Cx) (p : List Nat) (t : Ty) : M Expr := do
  match resolve c.env c.mod p with
  | (m, [n]) =>
    match find2 m n c.env.consts with
    | some ty =>
      let u ← c.typeIn m 0 ty
      same t u
      let n ← M.lift (find (joinName m n) constNames)
      M.pure (.const n)
    | none => c.plainVariant p t
  | _ => c.plainVariant p t

def Cx.plainVariant (c : Cx) (p : List Nat) (t : Ty) : M Expr := do
  match ← c.variant p with
  | some (v, [], u) =>
    same t u
    M.pure (.ctor v [])
  | _ => M.fail

/-- Expressions of the same type. -/
def Cx.elems (c : Cx) : Nat → Scope → List RExp → Ty → M (List Expr)
  | 0, _, _, _ => M.fail
  | _ + 1, _, [], _ => M.pure []
  | k + 1, g, e :: es, t => do
    let e ← c.ex k g e t
    let es ← c.elems k g es t
    M.pure (e :: es)

/-- Expressions of given types. -/
def Cx.args (c : Cx) : Nat → Scope → List RExp → List Ty → M (List Expr)
  | 0, _, _, _ => M.fail
  | _ + 1, _, [], [] => M.pure []
  | k + 1, g, e :: es, t :: ts => do
    let e ← c.ex k g e t
    let es ← c.args k g es ts
    M.pure (e :: es)
  | _ + 1, _, _, _ => M.fail

/-- The values of the fields of a structure of module `m`. -/
def Cx.fieldValues (c : Cx) : Nat → Scope → Nat → List (Nat × RTy) → List Nat → List RExp → M (List Id × List Expr)
  | 0, _, _, _, _, _ => M.fail
  | _ + 1, _, _, _, [], [] => M.pure ([], [])
  | k + 1, g, m, fts, f :: fs, e :: es => do
    let ft ← M.lift (find f fts)
    let ft ← c.typeIn m 0 ft
    let e ← c.ex k g e ft
    let i ← idOf f
    let (is, es) ← c.fieldValues k g m fts fs es
    M.pure (i :: is, e :: es)
  | _ + 1, _, _, _, _, _ => M.fail

/-- The arms of a `match` on a value of type `u`. -/
def Cx.arms (c : Cx) : Nat → Scope → List RPat → List RExp → Ty → Ty → M (List Pat × List Expr)
  | 0, _, _, _, _, _ => M.fail
  | _ + 1, _, [], [], _, _ => M.pure ([], [])
  | k + 1, g, p :: ps, e :: es, u, t => do
    let (p, g') ← c.pat k g p u
    let e ← c.ex k g' e t
    let (ps, es) ← c.arms k g ps es u t
    M.pure (p :: ps, e :: es)
  | _ + 1, _, _, _, _, _ => M.fail

/-- Statements, and the scope after them. -/
def Cx.stmts (c : Cx) : Nat → Scope → List RExp → M (List Expr × Scope)
  | 0, _, _ => M.fail
  | _ + 1, g, [] => M.pure ([], g)
  | k + 1, g, s :: ss => do
    let (s, g) ← c.stmt k g s
    let (ss, g) ← c.stmts k g ss
    M.pure (s :: ss, g)

def Cx.stmt (c : Cx) : Nat → Scope → RExp → M (Expr × Scope)
  | 0, _, _ => M.fail
  | k + 1, g, s => match s with
    | .«let» p ty e => do
      let t ← match ty with
        | some ty => c.typeOf ty
        | none => fresh
      match e with
      | some e =>
        let e ← c.ex k g e t
        let (p, g) ← c.pat k g p t
        M.pure (.let p e, g)
      | none =>
        match p with
        | .var x =>
          let i ← idOf x
          M.pure (.decl i, (x, t) :: g)
        | _ => M.fail
    | e => do
      let t ← fresh
      let e ← c.ex k g e t
      M.pure (e, g)

/-- `for p in e { body }` -/
def Cx.loop (c : Cx) : Nat → Scope → RPat → RExp → RExp → M Expr
  | 0, _, _, _, _ => M.fail
  | k + 1, g, p, e, body => match p, e with
    | .var x, .method s m [] =>
      if m == c!"iter_mut" then do
        mustPlace g s
        let a ← fresh
        let s ← c.ex k g s (tSeq a)
        let i ← idOf x
        let body ← c.ex k ((x, a) :: g) body tUnit
        M.pure (.forMut i s body)
      else c.plainLoop k g p e body
    | .tup [.var i, .var x], .method (.method s m []) m' [] =>
      if m == c!"iter_mut" then
        if m' == c!"enumerate" then do
          mustPlace g s
          let a ← fresh
          let s ← c.ex k g s (tSeq a)
          let ii ← idOf i
          let ix ← idOf x
          let body ← c.ex k ((x, a) :: (i, tUsize) :: g) body tUnit
          M.pure (.forMutEnum ii ix s body)
        else M.fail
      else c.plainLoop k g p e body
    | .tup [.var x, q], .method (.method s m []) m' [z] =>
      if m == c!"iter_mut" then
        if m' == c!"zip" then do
          mustPlace g s
          let a ← fresh
          let s ← c.ex k g s (tSeq a)
          let b ← fresh
          let z ← c.ex k g z (tSeq b)
          let ix ← idOf x
          let (q, g) ← c.pat k ((x, a) :: g) q b
          let body ← c.ex k g body tUnit
          M.pure (.forMutZip ix q s z body)
        else M.fail
      else c.plainLoop k g p e body
    | _, _ => c.plainLoop k g p e body

def Cx.plainLoop (c : Cx) : Nat → Scope → RPat → RExp → RExp → M Expr
  | 0, _, _, _, _ => M.fail
  | k + 1, g, p, e, body => do
    let a ← fresh
    let e ← c.ex k g e (tSeq a)
    let (p, g) ← c.pat k g p a
    let body ← c.ex k g body tUnit
    M.pure (.for p e body)

/-- `p(es)` -/
def Cx.call (c : Cx) : Nat → Scope → List Nat → List RExp → Ty → M Expr
  | 0, _, _, _, _ => M.fail
  | k + 1, g, p, es, t =>
    match p with
    | [a, b] =>
      if b == c!"from" && (find a intNames).isSome then
        match es with
        | [e] => do
          same t (.con a [])
          let u ← fresh
          let e ← c.ex k g e u
          let it ← M.lift (find a intNames)
          M.pure (.from it e)
        | _ => M.fail
      else if a == c!"Vec" && b == c!"with_capacity" then do
        let u ← fresh
        same t (tSeq u)
        let es ← c.args k g es [tUsize]
        let et ← c.elemTy u
        M.pure (.prim (.withCapacity et) es)
      else c.callPath k g p es t
    | [x, y, z] =>
      if x == c!"std" && y == c!"cmp" && z == c!"min" then do
        mustInt t
        let es ← c.args k g es [t, t]
        M.pure (.prim .min es)
      else c.callPath k g p es t
    | _ => c.callPath k g p es t

/-- A variant with arguments, or a function of the crate. -/
def Cx.callPath (c : Cx) : Nat → Scope → List Nat → List RExp → Ty → M Expr
  | 0, _, _, _, _ => M.fail
  | k + 1, g, p, es, t => do
    match ← c.variant p with
    | some (v, ts, u) =>
      same t u
      let es ← c.args k g es ts
      M.pure (.ctor v es)
    | none =>
      let s ← c.function p
      let es ← places g s.params es
      let r ← c.typeIn s.mod s.owner s.ret
      same t r
      let ts ← c.typesIn s.mod s.owner (s.params.map fun x => x.2.2)
      let es ← c.args k g es ts
      let f ← M.lift (find (fnName s) fnNames)
      M.pure (.call f es)

/-- `e.f(es)` -/
def Cx.method (c : Cx) : Nat → Scope → RExp → Nat → List RExp → Ty → M Expr
  | 0, _, _, _, _, _ => M.fail
  | k + 1, g, e, f, es, t => do
    let u ← fresh
    let r ← c.ex k g e u
    match ← prune u with
    | .con n _ =>
      match ((find n c.env.structs).map Prod.fst).or ((find n c.env.enums).map Prod.fst) with
      | some m =>
        let s ← M.lift (findFn m n f c.env.fns)
        let es ← places g s.params (.refMut e :: es)
        let rt ← c.typeIn s.mod s.owner s.ret
        same t rt
        let ts ← c.typesIn s.mod s.owner (s.params.map fun x => x.2.2)
        match ts with
        | [] => M.fail
        | t0 :: ts =>
          same u t0
          let es ← c.args k g es.tail ts
          let fn ← M.lift (find (fnName s) fnNames)
          M.pure (.call fn (r :: es))
      | none => c.library k g e r u f es t
    | _ => c.library k g e r u f es t

/-- Methods of the library; `r` is the expression they are called on, and `u` its type. -/
def Cx.library (c : Cx) : Nat → Scope → RExp → Expr → Ty → Nat → List RExp → Ty → M Expr
  | 0, _, _, _, _, _, _, _ => M.fail
  | k + 1, g, e, r, u, f, es, t =>
    match es with
    | [] =>
      if isConversion f then do
        same t u
        M.pure r
      else if f == c!"unwrap_or_default" then do
        let a ← fresh
        same u (tOption (tSeq a))
        same t (tSeq a)
        M.pure (.prim .unwrapOrDefault [r])
      else do
        let a ← fresh
        same u (tSeq a)
        if f == c!"len" then
          same t tUsize
          M.pure (.prim .len [r])
        else if f == c!"enumerate" then
          same t (tSeq (.con c!"tup" [tUsize, a]))
          M.pure (.prim .enumerate [r])
        else if f == c!"rev" then
          same t u
          M.pure (.prim .rev [r])
        else if f == c!"flatten" then
          let b ← fresh
          same a (tSeq b)
          same t (tSeq b)
          M.pure (.prim .flatten [r])
        else if f == c!"clear" then
          same t tUnit
          mustPlace g e
          M.pure (.mutPrim .clear r [])
        else M.fail
    | [x] =>
      if f == c!"wrapping_add" then do
        same t u
        let x ← c.ex k g x u
        M.pure (.prim .wrappingAdd [r, x])
      else do
        let a ← fresh
        same u (tSeq a)
        if f == c!"zip" then
          let b ← fresh
          same t (tSeq (.con c!"tup" [a, b]))
          let x ← c.ex k g x (tSeq b)
          M.pure (.prim .zip [r, x])
        else if f == c!"chunks" then
          same t (tSeq u)
          let x ← c.ex k g x tUsize
          M.pure (.prim .chunks [r, x])
        else if f == c!"chunks_exact" then
          same t (tSeq u)
          let x ← c.ex k g x tUsize
          M.pure (.prim .chunksExact [r, x])
        else if f == c!"map" then
          match x with
          | .closure p body =>
            let b ← fresh
            same t (tSeq b)
            let (p, g) ← c.pat k g p a
            let body ← c.ex k g body b
            M.pure (.map r p body)
          | _ => M.fail
        else
          mustPlace g e
          if f == c!"push" then
            same t tUnit
            let x ← c.ex k g x a
            M.pure (.mutPrim .push r [x])
          else if f == c!"split_off" then
            same t u
            let x ← c.ex k g x tUsize
            M.pure (.mutPrim .splitOff r [x])
          else if f == c!"copy_from_slice" || f == c!"clone_from_slice" then
            same t tUnit
            let x ← c.ex k g x u
            M.pure (.mutPrim .copyFromSlice r [x])
          else if f == c!"append" then
            same t tUnit
            match x with
            | .refMut y =>
              let z ← c.ex k g y u
              if isPlace g y then M.pure (.appendFrom r z) else M.pure (.mutPrim .append r [z])
            | _ => M.fail
          else M.fail
    | _ => M.fail

end

/-! ### Items -/

/-- How deep trees may be. -/
def depth : Nat := 1500

/-- An expression, looked at twice: what the first time finds out about types is `final` the second time. -/
def elaborate (env : Env) (m o : Nat) (g : Scope) (ret : Ty) (e : RExp) (t : Ty) : Option Expr :=
  match Cx.ex ⟨env, m, o, ret, none⟩ depth g e t ⟨0, []⟩ with
  | none => none
  | some (_, s) => (Cx.ex ⟨env, m, o, ret, some s⟩ depth g e t ⟨0, []⟩).map Prod.fst

def mode : RMode → Mode
  | .val => .val
  | .mutRef => .mutRef

/-- The parameters of a function, and the scope of its body. -/
def scopeOf (env : Env) (m o : Nat) : List (Nat × RMode × RTy) → Option (List (Id × Mode) × Scope)
  | [] => some ([], [])
  | (x, md, t) :: ps =>
    match find x idNames, typeOf env 32 m o t, scopeOf env m o ps with
    | some i, some t, some (is, g) => some ((i, mode md) :: is, (x, t) :: g)
    | _, _, _ => none

/-- A function of module `m` and type `o`. -/
def fnOf (env : Env) (ms : List MacroDef) (m o : Nat) (f : RFn) : Option FnDef :=
  match f.body with
  | none => none
  | some ts =>
    match block ms depth ts, scopeOf env m o f.params, typeOf env 32 m o f.ret with
    | some (e, []), some (ps, g), some ret => (elaborate env m o g ret e ret).map fun b => ⟨ps, b⟩
    | _, _, _ => none

/-- A constant of module `m`. -/
def constOf (env : Env) (ms : List MacroDef) (m : Nat) (t : RTy) (ts : List Tok) : Option Expr :=
  match expr ms depth true ts, typeOf env 32 m 0 t with
  | some (e, []), some t => elaborate env m 0 [] tUnit e t
  | _, _ => none

end Verif.Text
