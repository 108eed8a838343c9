import Verif.Source.Lemmas

/-!
Using an object of the crate: a constructor, then methods called one after the other. This is the user's side and
models no code of `/repo`; the functions it calls are the ones generated from `/repo/src`.
-/

namespace Verif.Source
open Verif

/-- `obj.f(args)`: what the method leaves in `obj`, and its result. A method on `&self` leaves it as it is. -/
def invoke (T : Target) (fuel depth : Nat) (obj : Val) (c : Fn × List Val) : R (Val × Val) :=
  call T crate fuel depth c.1 (obj :: c.2) >>= fun (v, outs) =>
    match outs with
    | [] => .ok (obj, v)
    | [obj'] => .ok (obj', v)
    | _ => .error .stuck

/-- Methods called one after the other on the same object, and their results. -/
def history (T : Target) (fuel depth : Nat) : Val → List (Fn × List Val) → R (List Val)
  | _, [] => .ok []
  | obj, c :: cs =>
    invoke T fuel depth obj c >>= fun (obj', v) =>
      history T fuel depth obj' cs >>= fun vs => .ok (v :: vs)

/-- A constructor, and then methods on the new object: the results of the methods. -/
def session (T : Target) (fuel depth : Nat) (new : Fn × List Val) (calls : List (Fn × List Val)) : R (List Val) :=
  call T crate fuel depth new.1 new.2 >>= fun (obj, _) => history T fuel depth obj calls

/-- A history on a state of the model. -/
def steps {σ ι : Type} (step : σ → ι → M (σ × Val)) : σ → List ι → M (List Val)
  | _, [] => .ok []
  | s, x :: xs => step s x >>= fun (s', v) => steps step s' xs >>= fun vs => .ok (v :: vs)

/-- When every method follows the model, so does every history. -/
theorem history_model {σ ι : Type} (T : Target) (fuel depth : Nat) (enc : σ → Val) (toCall : ι → Fn × List Val)
    (step : σ → ι → M (σ × Val)) (Inv : σ → Prop) (ok : ι → Prop)
    (h : ∀ s x, Inv s → ok x → invoke T fuel depth (enc s) (toCall x) = up (step s x) >>= fun r => .ok (enc r.1, r.2))
    (hI : ∀ s x s' v, Inv s → ok x → step s x = .ok (s', v) → Inv s') (s : σ) (hs : Inv s) (xs : List ι) (hx : ∀ x ∈ xs, ok x) :
    history T fuel depth (enc s) (xs.map toCall) = up (steps step s xs) := by
  induction xs generalizing s with
  | nil => rfl
  | cons x xs ih =>
    rw [List.map_cons, history, steps, h s x hs (hx x (by simp))]
    cases e : step s x with
    | error p => rfl
    | ok r =>
      obtain ⟨s', v⟩ := r
      have := ih s' (hI s x s' v hs (hx x (by simp)) e) fun y hy => hx y (by simp [hy])
      show history T fuel depth (enc s') (xs.map toCall) >>= _ = up (steps step s' xs >>= _)
      rw [this]
      cases steps step s' xs <;> rfl

end Verif.Source
