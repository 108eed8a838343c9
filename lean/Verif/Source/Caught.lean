import Verif.Source.LeftHmac
import Verif.Source.Api

/-!
Going on after a panic: `std::panic::catch_unwind` around each method call. This is the user's side and models no code
of `/repo`; `callU` (`Source/Unwind.lean`) says what the function had done to `*self` when it panicked.
-/

namespace Verif.Source
open Verif

/-- `catch_unwind(|| obj.f(args))`: the result or the panic, and what is left in `obj`. A method on `&self` leaves it as it is. -/
def attempt (T : Target) (fuel depth : Nat) (obj : Val) (c : Fn × List Val) : Verif.Source.R Val × Val :=
  match callU T crate fuel depth c.1 (obj :: c.2) with
  | (r, [obj']) => (r, obj')
  | (r, _) => (r, obj)

/-- Methods called one after the other on the same object, whether the earlier ones panicked or not. -/
def attempts (T : Target) (fuel depth : Nat) : Val → List (Fn × List Val) → List (Verif.Source.R Val)
  | _, [] => []
  | obj, c :: cs => (attempt T fuel depth obj c).1 :: attempts T fuel depth (attempt T fuel depth obj c).2 cs

/-- A constructor, and then methods on the new object. -/
def caughtSession (T : Target) (fuel depth : Nat) (new : Fn × List Val) (calls : List (Fn × List Val)) :
    Verif.Source.R (List (Verif.Source.R Val)) :=
  call T crate fuel depth new.1 new.2 >>= fun (obj, _) => .ok (attempts T fuel depth obj calls)

theorem attempts_model {σ ι : Type} (T : Target) (fuel depth : Nat) (obj : σ → Val → Prop) (toCall : ι → Fn × List Val)
    (step : σ → ι → Verif.Source.R Val × σ)
    (h : ∀ s v x, obj s v → (attempt T fuel depth v (toCall x)).1 = (step s x).1 ∧
      obj (step s x).2 (attempt T fuel depth v (toCall x)).2)
    (answers : σ → List ι → List (Verif.Source.R Val)) (h0 : ∀ s, answers s [] = [])
    (h1 : ∀ s x xs, answers s (x :: xs) = (step s x).1 :: answers (step s x).2 xs) (s : σ) (v : Val) (hs : obj s v) (xs : List ι) :
    attempts T fuel depth v (xs.map toCall) = answers s xs := by
  induction xs generalizing s v with
  | nil => rw [h0]; rfl
  | cons x xs ih =>
    obtain ⟨h2, h3⟩ := h s v x hs
    rw [List.map_cons, attempts, h1, h2, ih _ _ h3]

end Verif.Source
