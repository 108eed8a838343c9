/-!
A front end for the fragment of Rust the crate is written in: from the text of the files of `/repo/src` to the program of
`Verif.Source`. This file has the tokens. See The Rust Reference, chapter "Lexical structure".

Characters are numbers (Unicode scalar values) and names are numbers too, the characters in base 256, because the kernel is fast
with numbers. `c!"abc"` is the number of a name.
-/

namespace Verif.Text

open Lean in
/-- The number of a name. -/
macro:max "c!" s:str : term =>
  return Syntax.mkNumLit (toString (s.getString.foldl (fun n c => n * 256 + c.toNat) 0))

/-- The number of a name that is given by its characters. -/
def code (cs : List Nat) : Nat := cs.foldl (fun n c => n * 256 + c) 0

example : c!"self" = code ("self".toList.map Char.toNat) := by decide
example : c!"<<=" = code ("<<=".toList.map Char.toNat) := by decide

inductive Tok where
  /-- a keyword or an identifier -/
  | id (n : Nat)
  /-- an operator or another sign -/
  | op (n : Nat)
  /-- an integer literal -/
  | num (n : Nat)
  /-- a string literal: its characters -/
  | str (cs : List Nat)
  /-- a character literal; the crate has them only in tests, and what they are is not kept -/
  | chr
deriving DecidableEq, Repr

/-- Where in a token the lexer is. -/
inductive St where
  /-- between tokens -/
  | start
  | ident (n : Nat)
  | dec (n : Nat)
  | hex (n : Nat)
  | op (n : Nat)
  /-- in a string literal; the characters so far, the last one first -/
  | str (cs : List Nat)
  /-- after a backslash in a string literal -/
  | esc (cs : List Nat)
  /-- after `\x` in a string literal -/
  | hex1 (cs : List Nat)
  /-- after `\x` and one digit -/
  | hex2 (cs : List Nat) (d : Nat)
  /-- after the backslash at the end of a line: white space is skipped -/
  | cont (cs : List Nat)
  /-- after `'` -/
  | chr
  /-- after `'\` -/
  | chrEsc
  /-- before the `'` at the end of a character literal -/
  | chrEnd
  /-- in a `//` comment -/
  | comment
  /-- in a `/* */` comment; whether the last character was a `*`, a `/` -/
  | block (star slash : Bool)
deriving DecidableEq, Repr

def isDigit (c : Nat) : Bool := Nat.ble 48 c && Nat.ble c 57
def isLower (c : Nat) : Bool := Nat.ble 97 c && Nat.ble c 122
def isUpper (c : Nat) : Bool := Nat.ble 65 c && Nat.ble c 90
/-- A character that can begin an identifier. -/
def isIdStart (c : Nat) : Bool := isLower c || isUpper c || c == 95
/-- A character of an identifier. -/
def isIdChar (c : Nat) : Bool := isIdStart c || isDigit c
def isSpace (c : Nat) : Bool := c == 32 || c == 10

/-- The signs of the fragment. Every beginning of one of them is one of them. -/
def ops : List Nat :=
  [c!"<<=", c!">>=", c!"...", c!"..=", c!"->", c!"=>", c!"::", c!"..", c!"<<", c!">>", c!"&&", c!"||", c!"==", c!"!=", c!"<=",
    c!">=", c!"+=", c!"-=", c!"*=", c!"/=", c!"%=", c!"^=", c!"|=", c!"&=", c!"-", c!"+", c!"*", c!"/", c!"%", c!"^", c!"&", c!"|",
    c!"!", c!"<", c!">", c!"=", c!".", c!",", c!";", c!":", c!"(", c!")", c!"{", c!"}", c!"[", c!"]", c!"#", c!"?", c!"$"]

def hexDigit (c : Nat) : Option Nat :=
  if isDigit c then some (c - 48)
  else if Nat.ble 97 c && Nat.ble c 102 then some (c - 87)
  else if Nat.ble 65 c && Nat.ble c 70 then some (c - 55)
  else none

/-- The first character of a token. -/
def first (c : Nat) : Option St :=
  if isSpace c then some .start
  else if isIdStart c then some (.ident c)
  else if isDigit c then some (.dec (c - 48))
  else if c == 34 then some (.str [])
  else if c == 39 then some .chr
  else if ops.elem c then some (.op c)
  else none

/-- One more character: the token that ended before it, if any. -/
def step : St → Nat → Option (St × Option Tok)
  | .start, c => (first c).map (·, none)
  | .ident n, c => if isIdChar c then some (.ident (n * 256 + c), none) else (first c).map (·, some (.id n))
  | .dec n, c =>
    if isDigit c then some (.dec (n * 10 + (c - 48)), none)
    else if c == 95 then some (.dec n, none)
    else if n == 0 && c == 120 then some (.hex 0, none)
    else if isIdStart c then none
    else (first c).map (·, some (.num n))
  | .hex n, c =>
    match hexDigit c with
    | some d => some (.hex (n * 16 + d), none)
    | none =>
      if c == 95 then some (.hex n, none)
      else if isIdStart c then none
      else (first c).map (·, some (.num n))
  | .op n, c =>
    if n == 47 && c == 47 then some (.comment, none)
    else if n == 47 && c == 42 then some (.block false false, none)
    else if ops.elem (n * 256 + c) then some (.op (n * 256 + c), none)
    else (first c).map (·, some (.op n))
  | .str cs, c =>
    if c == 34 then some (.start, some (.str cs.reverse))
    else if c == 92 then some (.esc cs, none)
    else some (.str (c :: cs), none)
  | .esc cs, c => if c == 10 then some (.cont cs, none) else if c == 120 then some (.hex1 cs, none) else none
  | .hex1 cs, c => (hexDigit c).map fun d => (.hex2 cs d, none)
  | .hex2 cs d, c => (hexDigit c).map fun d' => (.str ((d * 16 + d') :: cs), none)
  | .cont cs, c =>
    if isSpace c then some (.cont cs, none)
    else if c == 34 then some (.start, some (.str cs.reverse))
    else if c == 92 then some (.esc cs, none)
    else some (.str (c :: cs), none)
  | .chr, c => if c == 92 then some (.chrEsc, none) else some (.chrEnd, none)
  | .chrEsc, _ => some (.chrEnd, none)
  | .chrEnd, c => if c == 39 then some (.start, some .chr) else none
  | .comment, c => if c == 10 then some (.start, none) else some (.comment, none)
  | .block star slash, c =>
    if star && c == 47 then some (.start, none)
    else if slash && c == 42 then none
    else some (.block (c == 42) (c == 47), none)

/-- The tokens that end in a piece of the text. -/
def lexLine : List Nat → St → Option (List Tok × St)
  | [], st => some ([], st)
  | c :: cs, st =>
    match step st c with
    | none => none
    | some (st', t) =>
      match lexLine cs st' with
      | none => none
      | some (ts, st'') =>
        match t with
        | none => some (ts, st'')
        | some t => some (t :: ts, st'')

/-- The tokens of a text, line by line. -/
def lex : List (List Nat) → St → Option (List (List Tok))
  | [], st => match st with
    | .start => some []
    | _ => none
  | l :: ls, st =>
    match lexLine (l ++ [10]) st with
    | none => none
    | some (ts, st') =>
      match lex ls st' with
      | none => none
      | some tss => some (ts :: tss)

end Verif.Text
