import Verif.Text.Lex

/-!
Parsing, by recursive descent. See The Rust Reference, chapters "Items", "Statements and expressions", "Patterns" and "Type system".
Whatever is outside the fragment makes the parser fail.
-/

namespace Verif.Text

/-! ### Trees -/

/-- Types. References are dropped, and so are the lengths of arrays: arrays, slices and vectors are `seq`. -/
inductive RTy where
  | unit
  | seq (t : RTy)
  | path (p : List Nat) (args : List RTy)
deriving Repr

/-- Patterns. A reference pattern `&p` is `p`. -/
inductive RPat where
  | wild
  | int (n : Nat)
  | tup (ps : List RPat)
  | ctor (p : List Nat) (ps : List RPat)
  | var (x : Nat)
deriving Repr

/-- Expressions and statements. -/
inductive RExp where
  | int (n : Nat)
  | str (cs : List Nat)
  | unit
  | path (p : List Nat)
  | «not» (e : RExp)
  /-- `*e`, `&e` and `(e)` -/
  | same (e : RExp)
  /-- `&mut e` -/
  | refMut (e : RExp)
  | and (a b : RExp)
  /-- the operator is the number of its sign -/
  | bin (op : Nat) (a b : RExp)
  | cast (e : RExp) (t : RTy)
  | field (e : RExp) (f : Nat)
  | index (e i : RExp)
  | range (lo hi : Option RExp) (incl : Bool)
  | array (es : List RExp)
  | «repeat» (e n : RExp)
  /-- `vec![e; n]` -/
  | vecRepeat (e n : RExp)
  | struct (p : List Nat) (fs : List Nat) (es : List RExp)
  | call (p : List Nat) (es : List RExp)
  | method (e : RExp) (f : Nat) (es : List RExp)
  | ite (c a : RExp) (b : Option RExp)
  | «match» (e : RExp) (ps : List RPat) (es : List RExp)
  | block (ss : List RExp) (e : Option RExp)
  | «let» (p : RPat) (t : Option RTy) (e : Option RExp)
  /-- `x = e`, or `x op= e` -/
  | assign (op : Option Nat) (x e : RExp)
  | «return» (e : RExp)
  | «continue»
  | «try» (e : RExp)
  | «while» (c body : RExp)
  | «for» (p : RPat) (e body : RExp)
  /-- `write!(x, s, e)` -/
  | write (x : RExp) (s : List Nat) (e : RExp)
  | closure (p : RPat) (e : RExp)
deriving Repr

/-! ### Parsers -/

/-- A parser: the tree and the rest of the tokens. -/
def P (α : Type) := List Tok → Option (α × List Tok)

namespace P

def pure {α : Type} (a : α) : P α := fun ts => some (a, ts)

def bind {α β : Type} (p : P α) (f : α → P β) : P β := fun ts =>
  match p ts with
  | none => none
  | some (a, ts') => f a ts'

instance : Monad P where
  pure := pure
  bind := bind

end P

def fail {α : Type} : P α := fun _ => none

/-- Whether the next token is the word or sign `n`. -/
def next (n : Nat) : P Bool := fun ts =>
  match ts with
  | .id m :: _ => some (m == n, ts)
  | .op m :: _ => some (m == n, ts)
  | _ => some (false, ts)

/-- The word or sign that is next, 0 if there is none. -/
def word : P Nat := fun ts =>
  match ts with
  | .id m :: _ => some (m, ts)
  | .op m :: _ => some (m, ts)
  | _ => some (0, ts)

/-- The word or sign after the next token, 0 if there is none. -/
def word2 : P Nat := fun ts =>
  match ts with
  | _ :: .id m :: _ => some (m, ts)
  | _ :: .op m :: _ => some (m, ts)
  | _ => some (0, ts)

/-- Takes the word or sign `n` if it is next. -/
def eat (n : Nat) : P Bool := fun ts =>
  match ts with
  | .id m :: r => if m == n then some (true, r) else some (false, ts)
  | .op m :: r => if m == n then some (true, r) else some (false, ts)
  | _ => some (false, ts)

/-- Takes the next token. -/
def skip : P Unit := fun ts =>
  match ts with
  | _ :: r => some ((), r)
  | [] => none

/-- Takes the word or sign `n`, which must be next. -/
def need (n : Nat) : P Unit := do
  if ← eat n then P.pure () else fail

/-- Takes an identifier. -/
def ident : P Nat := fun ts =>
  match ts with
  | .id n :: r => some (n, r)
  | _ => none

/-- Whether a name begins with a capital letter. -/
def capital (n : Nat) : Bool := go 32 n
where
  go : Nat → Nat → Bool
  | 0, _ => false
  | k + 1, n => if Nat.ble n 255 then isUpper n else go k (n / 256)

/-- `a::b::c` -/
def path : Nat → P (List Nat)
  | 0 => fail
  | k + 1 => do
    let x ← ident
    if ← eat c!"::" then
      let p ← path k
      P.pure (x :: p)
    else P.pure [x]

/-- The length of an array type: up to the closing bracket. -/
def arrayLength : Nat → P Unit
  | 0 => fail
  | k + 1 => do
    if ← next c!"]" then P.pure ()
    else if ← next c!"[" then fail
    else
      skip
      arrayLength k

/-- Takes one `>`, also when it is the first half of `>>`. -/
def closeAngle : P Bool := fun ts =>
  match ts with
  | .op n :: r => if n == c!">" then some (true, r) else if n == c!">>" then some (true, .op c!">" :: r) else some (false, ts)
  | _ => some (false, ts)

mutual

/-- A type. There is no `&mut` in it. -/
def type : Nat → P RTy
  | 0 => fail
  | k + 1 => do
    if ← eat c!"&" then
      if ← next c!"mut" then fail else type k
    else if ← eat c!"(" then
      need c!")"
      P.pure .unit
    else if ← eat c!"[" then
      let t ← type k
      if ← eat c!";" then
        arrayLength k
        need c!"]"
        P.pure (.seq t)
      else
        need c!"]"
        P.pure (.seq t)
    else
      let p ← path k
      if ← eat c!"<" then
        let as ← typeArgs k
        P.pure (.path p as)
      else P.pure (.path p [])

/-- The arguments of a type, after the `<`. -/
def typeArgs : Nat → P (List RTy)
  | 0 => fail
  | k + 1 => do
    let t ← type k
    if ← eat c!"," then
      let ts ← typeArgs k
      P.pure (t :: ts)
    else if ← closeAngle then P.pure [t]
    else fail

end

/-- An integer literal, if one is next. -/
def number : P (Option Nat) := fun ts =>
  match ts with
  | .num n :: r => some (some n, r)
  | _ => some (none, ts)

/-- A string literal, if one is next. -/
def string : P (Option (List Nat)) := fun ts =>
  match ts with
  | .str cs :: r => some (some cs, r)
  | _ => some (none, ts)

mutual

/-- A pattern. -/
def pattern : Nat → P RPat
  | 0 => fail
  | k + 1 => do
    if ← eat c!"&" then pattern k
    else if ← eat c!"_" then P.pure .wild
    else if ← eat c!"(" then
      let ps ← patterns k
      P.pure (.tup ps)
    else match ← number with
      | some n => P.pure (.int n)
      | none =>
        if ← eat c!"mut" then
          let x ← ident
          P.pure (.var x)
        else
          let p ← path k
          if ← eat c!"(" then
            let ps ← patterns k
            P.pure (.ctor p ps)
          else match p with
            | [x] => if capital x then P.pure (.ctor [x] []) else P.pure (.var x)
            | _ => P.pure (.ctor p [])

/-- Patterns up to the closing parenthesis. -/
def patterns : Nat → P (List RPat)
  | 0 => fail
  | k + 1 => do
    if ← eat c!")" then P.pure []
    else
      let p ← pattern k
      if ← eat c!"," then
        let ps ← patterns k
        P.pure (p :: ps)
      else
        need c!")"
        P.pure [p]

end

/-! ### Groups of tokens and macros -/

def isOpen (t : Tok) : Bool := match t with
  | .op n => n == c!"(" || n == c!"[" || n == c!"{"
  | _ => false

def isClose (t : Tok) : Bool := match t with
  | .op n => n == c!")" || n == c!"]" || n == c!"}"
  | _ => false

/-- The tokens up to the bracket that closes what was opened `depth` times. That brackets are of the same kind is not looked at. -/
def groupAt : List Tok → Nat → Option (List Tok × List Tok)
  | [], _ => none
  | t :: ts, d =>
    if isClose t then
      match d with
      | 0 => some ([], ts)
      | d + 1 => (groupAt ts d).map fun r => (t :: r.1, r.2)
    else if isOpen t then (groupAt ts (d + 1)).map fun r => (t :: r.1, r.2)
    else (groupAt ts d).map fun r => (t :: r.1, r.2)

/-- Takes what is between an open bracket and its closing one. -/
def group : P (List Tok) := fun ts =>
  match ts with
  | t :: ts => if isOpen t then groupAt ts 0 else none
  | [] => none

/-- Tokens between commas outside of brackets. -/
def splitArgs : List Tok → Nat → List (List Tok)
  | [], _ => [[]]
  | t :: ts, d =>
    let d' := if isOpen t then d + 1 else if isClose t then d - 1 else d
    if t = .op c!"," ∧ d = 0 then [] :: splitArgs ts d
    else match splitArgs ts d' with
      | [] => [[t]]
      | a :: as => (t :: a) :: as

/-- `macro_rules! name { ( $a:expr, $( $x:expr ),* ) => { body }; }`. Only this form of parameters is in the fragment. -/
structure MacroDef where
  name : Nat
  body : List Tok

/-- An argument as it is put in the body of a macro. -/
def paren (ts : List Tok) : List Tok := .op c!"(" :: (ts ++ [.op c!")"])

/-- What is repeated, for one argument. -/
def fillX (x : List Tok) : List Tok → List Tok
  | .op d :: .id n :: ts => if d == c!"$" && n == c!"x" then paren x ++ fillX x ts else .op d :: fillX x (.id n :: ts)
  | t :: ts => t :: fillX x ts
  | [] => []

/-- The body of a macro with arguments. -/
def fill (a : List Tok) (xs : List (List Tok)) : Nat → List Tok → Option (List Tok)
  | 0, _ => none
  | k + 1, .op d :: t :: ts =>
    if d == c!"$" then
      if t = .id c!"a" then (fill a xs k ts).map (paren a ++ ·)
      else if t = .op c!"(" then
        match groupAt ts 0 with
        | some (g, .op s :: rest) =>
          if s == c!"*" then (fill a xs k rest).map (((xs.map (fillX · g)).flatten) ++ ·) else none
        | _ => none
      else none
    else (fill a xs k (t :: ts)).map (.op d :: ·)
  | k + 1, t :: ts => (fill a xs k ts).map (t :: ·)
  | _ + 1, [] => some []

/-- The tokens of the body of a macro without its parameters. -/
def withoutParams : List Tok → List Tok
  | .op d :: .id n :: ts => if d == c!"$" then withoutParams ts else .op d :: .id n :: withoutParams ts
  | t :: ts => t :: withoutParams ts
  | [] => []

/-- No name of the arguments occurs in the body of the macro. Then no variable of the body is confused with one of the arguments. -/
def hygienic (body args : List Tok) : Bool :=
  args.all fun t => match t with
    | .id _ => !(withoutParams body).elem t
    | _ => true

/-- A use of a macro, given the tokens between its parentheses. -/
def expand (m : MacroDef) (args : List Tok) : Option (List Tok) :=
  if hygienic m.body args then
    match splitArgs args 0 with
    | a :: xs => fill a xs (m.body.length + 1) m.body
    | [] => none
  else none

/-! ### Expressions -/

/-- How tightly an operator binds. -/
def precedence (op : Nat) : Option Nat :=
  if op == c!"&&" then some 1
  else if op == c!"==" || op == c!"!=" || op == c!"<" || op == c!">" || op == c!"<=" || op == c!">=" then some 2
  else if op == c!"|" then some 3
  else if op == c!"^" then some 4
  else if op == c!"&" then some 5
  else if op == c!"<<" || op == c!">>" then some 6
  else if op == c!"+" || op == c!"-" then some 7
  else if op == c!"*" || op == c!"/" || op == c!"%" then some 8
  else none

/-- The operator of an assignment with an operator. -/
def assignOp (op : Nat) : Option Nat :=
  if op == c!"+=" then some c!"+" else if op == c!"-=" then some c!"-" else if op == c!"*=" then some c!"*"
  else if op == c!"/=" then some c!"/" else if op == c!"%=" then some c!"%" else if op == c!"^=" then some c!"^"
  else if op == c!"|=" then some c!"|" else if op == c!"&=" then some c!"&" else if op == c!"<<=" then some c!"<<"
  else if op == c!">>=" then some c!">>" else none

/-- What follows a range without an end. -/
def endsRange (w : Nat) : Bool := w == c!"]" || w == c!")"

/-- Whether a word begins an expression that is a statement without a semicolon. -/
def blockLike (w : Nat) : Bool := w == c!"if" || w == c!"match" || w == c!"while" || w == c!"for" || w == c!"{"

/-- The macro a name stands for. -/
def findMacro (n : Nat) : List MacroDef → Option MacroDef
  | [] => none
  | m :: ms => if m.name == n then some m else findMacro n ms

/-- Puts tokens before the rest. -/
def push (new : List Tok) : P Unit := fun ts => some ((), new ++ ts)

section
variable (ms : List MacroDef)

mutual

/-- An expression. `st`: whether `Name {` begins a structure; it does not in the head of an `if`, `match`, `while` or `for`. -/
def expr : Nat → Bool → P RExp
  | 0, _ => fail
  | k + 1, st => do
    let w ← word
    if w == c!"return" then
      skip
      let w ← word
      if w == c!";" || w == c!"}" then P.pure (.«return» .unit)
      else
        let e ← expr k st
        P.pure (.«return» e)
    else if w == c!"continue" then
      skip
      P.pure .«continue»
    else if w == c!"|" then
      skip
      let p ← pattern k
      need c!"|"
      let e ← expr k st
      P.pure (.closure p e)
    else
      let l ← rangeExpr k st
      let w ← word
      if w == c!"=" then
        skip
        let e ← expr k st
        P.pure (.assign none l e)
      else match assignOp w with
        | some op =>
          skip
          let e ← expr k st
          P.pure (.assign (some op) l e)
        | none => P.pure l

/-- An expression or a range. -/
def rangeExpr : Nat → Bool → P RExp
  | 0, _ => fail
  | k + 1, st => do
    if ← eat c!".." then
      let hi ← binary k 1 st
      P.pure (.range none (some hi) false)
    else
      let l ← binary k 1 st
      if ← eat c!"..=" then
        let hi ← binary k 1 st
        P.pure (.range (some l) (some hi) true)
      else if ← eat c!".." then
        let w ← word
        if endsRange w then P.pure (.range (some l) none false)
        else
          let hi ← binary k 1 st
          P.pure (.range (some l) (some hi) false)
      else P.pure l

/-- Operators that bind at least as tightly as `p`. -/
def binary : Nat → Nat → Bool → P RExp
  | 0, _, _ => fail
  | k + 1, p, st => do
    let l ← cast k st
    binaryRest k p st l

/-- More operators that bind at least as tightly as `p`, after `l`. Operators associate to the left; comparisons do not associate. -/
def binaryRest : Nat → Nat → Bool → RExp → P RExp
  | 0, _, _, _ => fail
  | k + 1, p, st, l => do
    let w ← word
    match precedence w with
    | none => P.pure l
    | some q =>
      if Nat.ble p q then
        skip
        let r ← binary k (q + 1) st
        if q == 2 then
          let w' ← word
          if precedence w' = some 2 then fail
          else binaryRest k p st (.bin w l r)
        else binaryRest k p st (if q == 1 then .and l r else .bin w l r)
      else P.pure l

/-- `e as t` -/
def cast : Nat → Bool → P RExp
  | 0, _ => fail
  | k + 1, st => do
    let e ← unary k st
    castRest k e

def castRest : Nat → RExp → P RExp
  | 0, _ => fail
  | k + 1, e => do
    if ← eat c!"as" then
      let t ← type k
      castRest k (.cast e t)
    else P.pure e

/-- `!e`, `*e`, `&e`, `&mut e` -/
def unary : Nat → Bool → P RExp
  | 0, _ => fail
  | k + 1, st => do
    let w ← word
    if w == c!"!" then
      skip
      let e ← unary k st
      P.pure (.«not» e)
    else if w == c!"*" then
      skip
      let e ← unary k st
      P.pure (.same e)
    else if w == c!"&" then
      skip
      if ← eat c!"mut" then
        let e ← unary k st
        P.pure (.refMut e)
      else
        let e ← unary k st
        P.pure (.same e)
    else
      let e ← atom k st
      suffix k e

/-- `e?`, `e[i]`, `e.f`, `e.f(es)`, `f(es)` -/
def suffix : Nat → RExp → P RExp
  | 0, _ => fail
  | k + 1, e => do
    let w ← word
    if w == c!"?" then
      skip
      suffix k (.«try» e)
    else if w == c!"[" then
      skip
      let i ← expr k true
      need c!"]"
      suffix k (.index e i)
    else if w == c!"." then
      skip
      let f ← ident
      if ← eat c!"(" then
        let es ← args k c!")"
        suffix k (.method e f es)
      else suffix k (.field e f)
    else if w == c!"(" then
      match e with
      | .path p =>
        skip
        let es ← args k c!")"
        suffix k (.call p es)
      | _ => fail
    else P.pure e

/-- Expressions with commas between them, up to `close`. -/
def args : Nat → Nat → P (List RExp)
  | 0, _ => fail
  | k + 1, close => do
    if ← eat close then P.pure []
    else
      let e ← expr k true
      if ← eat c!"," then
        let es ← args k close
        P.pure (e :: es)
      else
        need close
        P.pure [e]

/-- Literals, names, `(e)`, arrays, blocks, `if`, `match`, loops, structures and macros. -/
def atom : Nat → Bool → P RExp
  | 0, _ => fail
  | k + 1, st => do
    match ← number with
    | some n => P.pure (.int n)
    | none =>
    match ← string with
    | some cs => P.pure (.str cs)
    | none =>
    let w ← word
    if w == c!"(" then
      skip
      if ← eat c!")" then P.pure .unit
      else
        let e ← expr k true
        need c!")"
        P.pure (.same e)
    else if w == c!"[" then
      skip
      if ← eat c!"]" then P.pure (.array [])
      else
        let e ← expr k true
        if ← eat c!";" then
          let n ← expr k true
          need c!"]"
          P.pure (.«repeat» e n)
        else if ← eat c!"," then
          let es ← args k c!"]"
          P.pure (.array (e :: es))
        else
          need c!"]"
          P.pure (.array [e])
    else if w == c!"{" then block k
    else if w == c!"if" then
      skip
      let c ← expr k false
      let a ← block k
      if ← eat c!"else" then
        if ← next c!"if" then
          let b ← atom k st
          P.pure (.ite c a (some b))
        else
          let b ← block k
          P.pure (.ite c a (some b))
      else P.pure (.ite c a none)
    else if w == c!"match" then
      skip
      let e ← expr k false
      need c!"{"
      let (ps, es) ← arms k
      P.pure (.«match» e ps es)
    else if w == c!"while" then
      skip
      if ← next c!"let" then fail
      else
        let c ← expr k false
        let b ← block k
        P.pure (.«while» c b)
    else if w == c!"for" then
      skip
      let p ← pattern k
      need c!"in"
      let e ← expr k false
      let b ← block k
      P.pure (.«for» p e b)
    else
      let p ← path k
      let w ← word
      if w == c!"!" then
        match p with
        | [m] =>
          skip
          macroUse k m
        | _ => fail
      else if st && w == c!"{" && capital (p.getLastD 0) then
        skip
        let (fs, es) ← fields k
        P.pure (.struct p fs es)
      else P.pure (.path p)

/-- A use of a macro, after the `!`. -/
def macroUse : Nat → Nat → P RExp
  | 0, _ => fail
  | k + 1, m => do
    if m == c!"vec" then
      need c!"["
      if ← eat c!"]" then P.pure (.array [])
      else
        let e ← expr k true
        need c!";"
        let n ← expr k true
        need c!"]"
        P.pure (.vecRepeat e n)
    else if m == c!"write" then
      need c!"("
      let es ← args k c!")"
      match es with
      | [x, .str s, e] => P.pure (.write x s e)
      | _ => fail
    else match findMacro m ms with
      | none => fail
      | some d =>
        let as ← group
        match expand d as with
        | none => fail
        | some ts =>
          push ts
          block k

/-- The fields of a structure, up to the closing brace. -/
def fields : Nat → P (List Nat × List RExp)
  | 0 => fail
  | k + 1 => do
    if ← eat c!"}" then P.pure ([], [])
    else
      let f ← ident
      let e ← if ← eat c!":" then expr k true else P.pure (.path [f])
      if ← eat c!"," then
        let (fs, es) ← fields k
        P.pure (f :: fs, e :: es)
      else
        need c!"}"
        P.pure ([f], [e])

/-- The arms of a `match`, up to the closing brace. -/
def arms : Nat → P (List RPat × List RExp)
  | 0 => fail
  | k + 1 => do
    if ← eat c!"}" then P.pure ([], [])
    else
      let p ← pattern k
      need c!"=>"
      if ← next c!"{" then
        let e ← block k
        let _ ← eat c!","
        let (ps, es) ← arms k
        P.pure (p :: ps, e :: es)
      else
        let e ← expr k true
        if ← eat c!"," then
          let (ps, es) ← arms k
          P.pure (p :: ps, e :: es)
        else
          need c!"}"
          P.pure ([p], [e])

/-- `{ statements }` -/
def block : Nat → P RExp
  | 0 => fail
  | k + 1 => do
    need c!"{"
    let (ss, e) ← statements k
    P.pure (.block ss e)

/-- Statements, and the expression at the end if there is one, up to the closing brace. -/
def statements : Nat → P (List RExp × Option RExp)
  | 0 => fail
  | k + 1 => do
    let w ← word
    if w == c!"}" then
      skip
      P.pure ([], none)
    else if w == c!"let" then
      skip
      let p ← pattern k
      let t ← if ← eat c!":" then (do let t ← type k; P.pure (some t)) else P.pure none
      let e ← if ← eat c!"=" then (do let e ← expr k true; P.pure (some e)) else P.pure none
      need c!";"
      let (ss, r) ← statements k
      P.pure (.«let» p t e :: ss, r)
    else if blockLike w then
      let e ← atom k true
      let w ← word
      if w == c!"}" then
        skip
        P.pure ([], some e)
      else if w == c!"." || w == c!"?" then fail
      else
        let _ ← eat c!";"
        let (ss, r) ← statements k
        P.pure (e :: ss, r)
    else
      let e ← expr k true
      if ← eat c!";" then
        let (ss, r) ← statements k
        P.pure (e :: ss, r)
      else
        need c!"}"
        P.pure ([], some e)

end
end

/-! ### Items -/

inductive RMode where
  | val
  | mutRef
deriving DecidableEq, Repr

/-- A function or a method: its name, its parameters, the type of its result, and the tokens of its body. -/
structure RFn where
  name : Nat
  params : List (Nat × RMode × RTy)
  ret : RTy
  body : Option (List Tok)
deriving Repr

inductive Item where
  /-- local names and full paths -/
  | use (names : List (Nat × List Nat))
  /-- a constant: its name, its type, and the tokens of its value -/
  | «const» (n : Nat) (t : RTy) (e : List Tok)
  | «alias» (n : Nat) (t : RTy)
  | struct (n : Nat) (fs : List (Nat × RTy))
  | enum (n : Nat) (vs : List (Nat × List RTy))
  | «trait» (n : Nat) (fs : List RFn)
  | impl (trait : Option Nat) (owner : Nat) (fs : List RFn)
  | fn (f : RFn)
  | «macro» (n : Nat) (body : List Tok)
  | «mod» (n : Nat)
deriving Repr

mutual

/-- What a `use` imports. `pre` is the path so far. -/
def useTree : Nat → List Nat → P (List (Nat × List Nat))
  | 0, _ => fail
  | k + 1, pre => do
    if ← eat c!"{" then useTrees k pre
    else
      let n ← ident
      if ← eat c!"::" then useTree k (pre ++ [n])
      else if ← eat c!"as" then
        let m ← ident
        P.pure [(m, pre ++ [n])]
      else P.pure [(n, pre ++ [n])]

def useTrees : Nat → List Nat → P (List (Nat × List Nat))
  | 0, _ => fail
  | k + 1, pre => do
    if ← eat c!"}" then P.pure []
    else
      let t ← useTree k pre
      let _ ← eat c!","
      let ts ← useTrees k pre
      P.pure (t ++ ts)

end

/-- The parameters of a function, up to the closing parenthesis. -/
def params : Nat → P (List (Nat × RMode × RTy))
  | 0 => fail
  | k + 1 => do
    if ← eat c!")" then P.pure []
    else
      let p ← param k
      if ← eat c!"," then
        let ps ← params k
        P.pure (p :: ps)
      else
        need c!")"
        P.pure [p]
where
  param (k : Nat) : P (Nat × RMode × RTy) := do
    let w ← word
    let w' ← word2
    if w == c!"self" && w' != c!":" then
      skip
      P.pure (c!"self", .val, .path [c!"Self"] [])
    else if w == c!"&" then
      skip
      let m ← eat c!"mut"
      need c!"self"
      P.pure (c!"self", if m then .mutRef else .val, .path [c!"Self"] [])
    else
      let _ ← eat c!"mut"
      let x ← ident
      need c!":"
      let r ← next c!"&"
      let w ← word2
      if r && w == c!"mut" then
        skip
        skip
        let t ← type k
        P.pure (x, .mutRef, t)
      else
        let t ← type k
        P.pure (x, .val, t)

/-- A function. -/
def function (k : Nat) : P RFn := do
  let _ ← eat c!"pub"
  need c!"fn"
  let n ← ident
  need c!"("
  let ps ← params k
  let t ← if ← eat c!"->" then type k else P.pure .unit
  if ← eat c!";" then P.pure ⟨n, ps, t, none⟩
  else if ← next c!"{" then
    let b ← group
    P.pure ⟨n, ps, t, some (.op c!"{" :: (b ++ [.op c!"}"]))⟩
  else fail

/-- Functions up to the closing brace. -/
def functions : Nat → P (List RFn)
  | 0 => fail
  | k + 1 => do
    if ← eat c!"}" then P.pure []
    else
      let f ← function k
      let fs ← functions k
      P.pure (f :: fs)

/-- The fields of a structure, up to the closing brace. -/
def structFields : Nat → P (List (Nat × RTy))
  | 0 => fail
  | k + 1 => do
    if ← eat c!"}" then P.pure []
    else
      let _ ← eat c!"pub"
      let f ← ident
      need c!":"
      let t ← type k
      if ← eat c!"," then
        let fs ← structFields k
        P.pure ((f, t) :: fs)
      else
        need c!"}"
        P.pure [(f, t)]

/-- The types in a variant, up to the closing parenthesis. -/
def variantTypes : Nat → P (List RTy)
  | 0 => fail
  | k + 1 => do
    if ← eat c!")" then P.pure []
    else
      let t ← type k
      if ← eat c!"," then
        let ts ← variantTypes k
        P.pure (t :: ts)
      else
        need c!")"
        P.pure [t]

/-- The variants of an enumeration, up to the closing brace. -/
def variants : Nat → P (List (Nat × List RTy))
  | 0 => fail
  | k + 1 => do
    if ← eat c!"}" then P.pure []
    else
      let v ← ident
      let ts ← if ← eat c!"(" then variantTypes k else P.pure []
      if ← eat c!"," then
        let vs ← variants k
        P.pure ((v, ts) :: vs)
      else
        need c!"}"
        P.pure [(v, ts)]

/-- The tokens up to a semicolon outside of brackets. -/
def upToSemicolon : List Tok → Nat → Option (List Tok × List Tok)
  | [], _ => none
  | t :: ts, d =>
    if t = .op c!";" ∧ d = 0 then some ([], ts)
    else (upToSemicolon ts (if isOpen t then d + 1 else if isClose t then d - 1 else d)).map fun r => (t :: r.1, r.2)

/-- The parameters of a macro: `$a:expr, $( $x:expr ),*`. -/
def macroParams : List Tok :=
  [.op c!"$", .id c!"a", .op c!":", .id c!"expr", .op c!",", .op c!"$", .op c!"(", .op c!"$", .id c!"x", .op c!":", .id c!"expr",
    .op c!")", .op c!",", .op c!"*"]

/-- An item. -/
def item (k : Nat) : P Item := do
  let _ ← eat c!"pub"
  let w ← word
  if w == c!"use" then
    skip
    let ns ← useTree k []
    need c!";"
    P.pure (.use ns)
  else if w == c!"const" then
    skip
    let n ← ident
    need c!":"
    let t ← type k
    need c!"="
    let e ← (upToSemicolon · 0)
    P.pure (.const n t e)
  else if w == c!"type" then
    skip
    let n ← ident
    need c!"="
    let t ← type k
    need c!";"
    P.pure (.alias n t)
  else if w == c!"struct" then
    skip
    let n ← ident
    need c!"{"
    let fs ← structFields k
    P.pure (.struct n fs)
  else if w == c!"enum" then
    skip
    let n ← ident
    need c!"{"
    let vs ← variants k
    P.pure (.enum n vs)
  else if w == c!"trait" then
    skip
    let n ← ident
    need c!"{"
    let fs ← functions k
    P.pure (.trait n fs)
  else if w == c!"impl" then
    skip
    let n ← ident
    if ← eat c!"for" then
      let m ← ident
      need c!"{"
      let fs ← functions k
      P.pure (.impl (some n) m fs)
    else
      need c!"{"
      let fs ← functions k
      P.pure (.impl none n fs)
  else if w == c!"macro_rules" then
    skip
    need c!"!"
    let n ← ident
    let g ← group
    match group g with
    | some (ps, .op a :: rest) =>
      if ps = macroParams ∧ a = c!"=>" then
        match group rest with
        | some (b, r) => if r = [] ∨ r = [.op c!";"] then P.pure (.«macro» n b) else fail
        | none => fail
      else fail
    | _ => fail
  else if w == c!"mod" then
    skip
    let n ← ident
    need c!";"
    P.pure (.mod n)
  else if w == c!"fn" then
    let f ← function k
    P.pure (.fn f)
  else fail

/-- Skips an item: up to a semicolon, or to the end of a group in braces. -/
def skipItem : Nat → P Unit
  | 0 => fail
  | k + 1 => do
    if ← eat c!";" then P.pure ()
    else if ← next c!"{" then
      let _ ← group
      P.pure ()
    else
      skip
      skipItem k

/-- What an attribute says: the next item is left out, or nothing that matters here. -/
def attributeSays (ts : List Tok) : Option Bool :=
  match ts with
  | .id n :: _ =>
    if ts = [.id c!"cfg", .op c!"(", .id c!"test", .op c!")"] then some true
    else if n == c!"derive" || n == c!"macro_export" || n == c!"macro_use" then some false
    else none
  | _ => none

/-- The items of a file that are not only for tests. -/
def items : Nat → P (List Item)
  | 0 => fail
  | k + 1 => fun ts =>
    match ts with
    | [] => some ([], [])
    | _ => (do
      if ← eat c!"#" then
        let a ← group
        match attributeSays a with
        | none => fail
        | some true =>
          skipItem k
          items k
        | some false => items k
      else
        let i ← item k
        let is ← items k
        P.pure (i :: is)) ts

end Verif.Text
