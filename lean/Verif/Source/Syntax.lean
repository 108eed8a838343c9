import Verif.Source.Names

/-!
Abstract syntax of the fragment of Rust the crate is written in.

A program is generated from the text of `/repo/src` by `tools/rust2lean.py`. What the generator does beyond parsing:
it resolves names and methods (`a.f(b)` becomes `call f [a, b]`), substitutes `Self`, copies default methods of
traits to every implementation, expands `macro_rules!`, gives every integer literal its inferred type,
and erases shared references, `*`, and conversions between arrays, slices, vectors and iterators, which have no effect
on values. A wrong type or resolution makes the evaluation of `Semantics.lean` get stuck.
-/

set_option linter.constructorNameAsVariable false

namespace Verif.Source

/-- Integer types. `i32` only occurs as the type of literal shift amounts. -/
inductive IntTy where
  | u8 | u32 | u64 | usize | i32
deriving DecidableEq, Repr

/-- Element types, as far as their size matters to `Vec::with_capacity`. -/
inductive ElemTy where
  | u8 | u32 | vec
deriving DecidableEq, Repr

inductive BinOp where
  | add | sub | mul | div | rem | and | or | xor | shl | shr
  | eq | ne | lt | le | gt | ge
deriving DecidableEq, Repr

/-- Library functions without effect on their arguments. -/
inductive Prim where
  /-- `x.len()` -/
  | len
  /-- `x.enumerate()` -/
  | enumerate
  /-- `x.zip(y)` -/
  | zip
  /-- `x.rev()` -/
  | rev
  /-- `x.flatten()` -/
  | flatten
  /-- `x.chunks(n)` -/
  | chunks
  /-- `x.chunks_exact(n)` -/
  | chunksExact
  /-- `std::cmp::min(x, y)` -/
  | min
  /-- `x.wrapping_add(y)` -/
  | wrappingAdd
  /-- `Vec::with_capacity(n)` -/
  | withCapacity (t : ElemTy)
  /-- `vec![x; n]` -/
  | vecRepeat (t : ElemTy)
  /-- `x.unwrap_or_default()` on an `Option<Vec<_>>` -/
  | unwrapOrDefault
deriving DecidableEq, Repr

/-- Library functions that change their first argument. -/
inductive MutPrim where
  /-- `x.push(y)` -/
  | push
  /-- `x.clear()` -/
  | clear
  /-- `x.split_off(n)` -/
  | splitOff
  /-- `x.copy_from_slice(y)`, `x.clone_from_slice(y)` -/
  | copyFromSlice
  /-- `x.append(&mut y)`, for its effect on `x` -/
  | append
  /-- `write!(x, "pre{}post", y)` for a string `y` -/
  | write (pre post : String)
deriving DecidableEq, Repr

/-- Patterns. A reference pattern `&p` is `p`. -/
inductive Pat where
  | wild
  | var (x : Id)
  | int (t : IntTy) (n : Nat)
  | ctor (c : Ctor) (ps : List Pat)
  | tup (ps : List Pat)
deriving Repr

/-- Expressions and statements. -/
inductive Expr where
  | int (t : IntTy) (n : Nat)
  | str (s : String)
  | unit
  /-- a local variable or parameter -/
  | var (x : Id)
  /-- a `const` item -/
  | const (c : Const)
  /-- `!e` -/
  | not (e : Expr)
  | bin (op : BinOp) (a b : Expr)
  /-- `a && b` -/
  | andAlso (a b : Expr)
  /-- `e as t` -/
  | cast (e : Expr) (t : IntTy)
  /-- `t::from(e)` -/
  | from (t : IntTy) (e : Expr)
  /-- `e.f` -/
  | field (e : Expr) (f : Id)
  /-- `e[i]` -/
  | index (e i : Expr)
  /-- `e[lo..hi]` -/
  | slice (e lo hi : Expr)
  /-- `e[..hi]` -/
  | sliceTo (e hi : Expr)
  /-- `e[lo..]` -/
  | sliceFrom (e lo : Expr)
  /-- `lo..hi` -/
  | range (lo hi : Expr)
  /-- `lo..=hi` -/
  | rangeIncl (lo hi : Expr)
  /-- `[e₁, …]`, `vec![]` -/
  | array (es : List Expr)
  /-- `[e; n]` -/
  | repeat (e n : Expr)
  | tup (es : List Expr)
  /-- `S { f₁: e₁, … }` -/
  | struct (s : Struct) (fs : List Id) (es : List Expr)
  /-- a variant of an enumeration -/
  | ctor (c : Ctor) (es : List Expr)
  /-- a call of a function or method of the crate -/
  | call (f : Fn) (args : List Expr)
  /-- a call of a library function -/
  | prim (p : Prim) (args : List Expr)
  /-- a call of a library function that changes the place `x` -/
  | mutPrim (p : MutPrim) (x : Expr) (args : List Expr)
  /-- `x.append(&mut y)` where `y` is a place: it is emptied -/
  | appendFrom (x y : Expr)
  /-- `e.map(|p| body)` -/
  | map (e : Expr) (p : Pat) (body : Expr)
  | ite (c a b : Expr)
  | «match» (e : Expr) (ps : List Pat) (bodies : List Expr)
  /-- `{ ss; e }` -/
  | block (ss : List Expr) (e : Expr)
  /-- `let p = e;` -/
  | «let» (p : Pat) (e : Expr)
  /-- `let x;` -/
  | decl (x : Id)
  /-- `x = e` for a place `x` -/
  | assign (x e : Expr)
  /-- `x op= e` for a place `x` -/
  | assignOp (op : BinOp) (x e : Expr)
  | «return» (e : Expr)
  | «continue»
  /-- `e?` -/
  | «try» (e : Expr)
  | «while» (c body : Expr)
  | «for» (p : Pat) (e body : Expr)
  /-- `for x in place.iter_mut() { body }` -/
  | forMut (x : Id) (place body : Expr)
  /-- `for (i, x) in place.iter_mut().enumerate() { body }` -/
  | forMutEnum (i x : Id) (place body : Expr)
  /-- `for (x, p) in place.iter_mut().zip(e) { body }` -/
  | forMutZip (x : Id) (p : Pat) (place e body : Expr)
deriving Repr

/-- How a parameter is passed. -/
inductive Mode where
  /-- by value or by shared reference -/
  | val
  /-- by `&mut` -/
  | mutRef
deriving DecidableEq, Repr

/-- A function or method; `self` is an ordinary parameter. -/
structure FnDef where
  params : List (Id × Mode)
  body : Expr
deriving Repr

/-- The items of a crate. -/
structure Program where
  fn : Fn → FnDef
  const : Const → Expr

end Verif.Source
