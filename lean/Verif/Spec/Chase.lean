import Verif.Spec.Sha256

/-! A search for collisions that keeps two strings only (Floyd's cycle finding). -/

namespace Spec.Chase
open Spec

/-- First one string runs after another that is twice as fast. When they meet, the slow one is put back to the start, and both go on at the
same speed until the next step would take them to the same place. -/
inductive Chase where
  | chase (slow fast : List Byte)
  | walk (a b : List Byte)
  | found (a b : List Byte)

variable {m : Type → Type} [Monad m]

/-- One step, and how often `F` was computed. -/
def step (F : List Byte → m (List Byte)) (start : List Byte) : Chase → m (Chase × Nat)
  | .chase slow fast => do
    let slow ← F slow
    let fast ← F (← F fast)
    if slow = fast then return (.walk start slow, 3) else return (.chase slow fast, 3)
  | .walk a b => do
    let a' ← F a
    let b' ← F b
    if a' = b' then return (.found a b, 2) else return (.walk a' b', 2)
  | .found a b => return (.found a b, 0)

/-- The state after `n` steps, and how often `F` was computed up to then. -/
def search (F : List Byte → m (List Byte)) (start : List Byte) : (n : Nat) → m (Chase × Nat)
  | 0 => return (.chase start start, 0)
  | n + 1 => do
    let (s, k) ← search F start n
    let (s, k') ← step F start s
    return (s, k + k')

end Spec.Chase
