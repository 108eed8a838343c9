import Verif.Text.Elab

/-! From the files of a crate to its functions and constants. -/

namespace Verif.Text
open Verif.Source (Expr FnDef Fn Const)

/-- A file: the name of the module, and its items. -/
abbrev File := Nat × List Item

/-- The methods with a body of a trait of this file. -/
def traitMethods (n : Nat) : List Item → List RFn
  | [] => []
  | .trait m fs :: is => if m == n then fs.filter (·.body.isSome) else traitMethods n is
  | _ :: is => traitMethods n is

/-- The methods of the trait that are not among `fs`. -/
def defaults (fs : List RFn) (ds : List RFn) : List RFn := ds.filter fun d => !(fs.map (·.name)).elem d.name

/-- The functions of a file with the types they belong to, 0 for none. `all` are all the items of the file. -/
def functionsOf (all : List Item) : List Item → List (Nat × RFn)
  | [] => []
  | .fn f :: is => (0, f) :: functionsOf all is
  | .impl none o fs :: is => fs.map (fun f => (o, f)) ++ functionsOf all is
  | .impl (some t) o fs :: is => (fs ++ defaults fs (traitMethods t all)).map (fun f => (o, f)) ++ functionsOf all is
  | _ :: is => functionsOf all is

/-- All functions: module, type, function. -/
def allFunctions (fs : List File) : List (Nat × Nat × RFn) :=
  (fs.map fun f => (functionsOf f.2 f.2).map fun x => (f.1, x)).flatten

def constantsOf : List Item → List (Nat × RTy × List Tok)
  | [] => []
  | .const n t e :: is => (n, t, e) :: constantsOf is
  | _ :: is => constantsOf is

/-- All constants: module, name, type, tokens. -/
def allConstants (fs : List File) : List (Nat × Nat × RTy × List Tok) :=
  (fs.map fun f => (constantsOf f.2).map fun x => (f.1, x)).flatten

def usesOf : List Item → List (Nat × List Nat)
  | [] => []
  | .use ns :: is => ns ++ usesOf is
  | _ :: is => usesOf is

def aliasesOf (m : Nat) : List Item → List (Nat × Nat × RTy)
  | [] => []
  | .alias n t :: is => (m, n, t) :: aliasesOf m is
  | _ :: is => aliasesOf m is

def structsOf (m : Nat) : List Item → List (Nat × Nat × List (Nat × RTy))
  | [] => []
  | .struct n fs :: is => (n, m, fs) :: structsOf m is
  | _ :: is => structsOf m is

def enumsOf (m : Nat) : List Item → List (Nat × Nat × List (Nat × List RTy))
  | [] => []
  | .enum n vs :: is => (n, m, vs) :: enumsOf m is
  | _ :: is => enumsOf m is

def macrosOf : List Item → List MacroDef
  | [] => []
  | .«macro» n b :: is => ⟨n, b⟩ :: macrosOf is
  | _ :: is => macrosOf is

def modsOf : List Item → List Nat
  | [] => []
  | .mod n :: is => n :: modsOf is
  | _ :: is => modsOf is

/-- The macros of all files. -/
def macros (fs : List File) : List MacroDef := (fs.map fun f => macrosOf f.2).flatten

def sigOf (x : Nat × Nat × RFn) : Sig := ⟨x.1, x.2.1, x.2.2.name, x.2.2.params, x.2.2.ret⟩

/-- What is declared. -/
def envOf (fs : List File) : Env where
  mods := fs.map Prod.fst
  uses := fs.map fun f => (f.1, usesOf f.2)
  aliases := (fs.map fun f => aliasesOf f.1 f.2).flatten
  consts := (allConstants fs).map fun x => (x.1, x.2.1, x.2.2.1)
  structs := (fs.map fun f => structsOf f.1 f.2).flatten
  enums := (fs.map fun f => enumsOf f.1 f.2).flatten
  fns := (allFunctions fs).map sigOf

/-- No name twice. -/
def distinct : List Nat → Bool
  | [] => true
  | n :: l => !l.elem n && distinct l

/-- Applies a function to the elements of a list; fails if it fails. -/
def traverse {α β : Type} (f : α → Option β) : List α → Option (List β)
  | [] => some []
  | a :: l => match f a, traverse f l with
    | some b, some bs => some (b :: bs)
    | _, _ => none

theorem traverse_nil {α β : Type} (f : α → Option β) : traverse f [] = some [] := rfl

theorem traverse_cons {α β : Type} {f : α → Option β} {a : α} {b : β} {l : List α} {bs : List β} (h : f a = some b)
    (hl : traverse f l = some bs) : traverse f (a :: l) = some (b :: bs) := by
  simp only [traverse, h, hl]

/-- A function, and what it is called in `Fn`. -/
def translateFn (env : Env) (ms : List MacroDef) (x : Nat × Nat × RFn) : Option (Fn × FnDef) :=
  match find (fnName (sigOf x)) fnNames, fnOf env ms x.1 x.2.1 x.2.2 with
  | some f, some d => some (f, d)
  | _, _ => none

/-- A constant, and what it is called in `Const`. -/
def translateConst (env : Env) (ms : List MacroDef) (x : Nat × Nat × RTy × List Tok) : Option (Const × Expr) :=
  match find (joinName x.1 x.2.1) constNames, constOf env ms x.1 x.2.2.1 x.2.2.2 with
  | some c, some e => some (c, e)
  | _, _ => none

/-- The functions and the constants of a crate, given the items of its files. Types of different modules must have different names. -/
def translateItems (fs : List File) : Option (List (Fn × FnDef) × List (Const × Expr)) :=
  let env := envOf fs
  let ms := macros fs
  if distinct (env.structs.map Prod.fst ++ env.enums.map Prod.fst) then
    match traverse (translateFn env ms) (allFunctions fs), traverse (translateConst env ms) (allConstants fs) with
    | some f, some c => some (f, c)
    | _, _ => none
  else none

/-- The items of a file. -/
def parseFile (lines : List (List Nat)) : Option (List Item) :=
  match lex lines .start with
  | none => none
  | some toks => match items 1000 toks.flatten with
    | some (is, []) => some is
    | _ => none

/-- The items of the file of module `m`. -/
def parseMod (files : List (Nat × List (List Nat))) (m : Nat) : Option File :=
  match find m files with
  | none => none
  | some ls => (parseFile ls).map fun is => (m, is)

/-- The functions and constants of a crate. `lib` is the text of `src/lib.rs`, which says what the modules are, and `files` are the texts
of the files of the modules. -/
def translateChars (lib : List (List Nat)) (files : List (Nat × List (List Nat))) :
    Option (List (Fn × FnDef) × List (Const × Expr)) :=
  match parseFile lib with
  | none => none
  | some is => match traverse (parseMod files) (modsOf is) with
    | none => none
    | some fs => translateItems fs

/-- The characters of a line. -/
def encode (s : String) : List Nat := s.toList.map Char.toNat

/-- The same, from text. -/
def translate (lib : List String) (files : List (Nat × List String)) : Option (List (Fn × FnDef) × List (Const × Expr)) :=
  translateChars (lib.map encode) (files.map fun f => (f.1, f.2.map encode))

end Verif.Text
