import Verif.Spec.TableGames

/-
Machines with a bounded memory that carry out scryptROMix (RFC 7914, section 5), with a function `f` in the place of scryptBlockMix.
-/

namespace Spec.TableMachine
open Spec Spec.Games Spec.TableGames

/-- What a machine does next: it stops with a result, or evaluates the function, on up to `c` arguments at the same time. What it keeps then, a
value of `σ`, may depend on the values of the function. -/
inductive Act (c : Nat) (σ E : Type) where
  | result (y : E)
  | eval (x : Fin c → E) (next : (y : Fin c → E) → σ)

/-- The result of a machine that starts with `s` in its memory, if it comes after at most `T` steps. Between two steps the machine keeps an element
of `σ`, and nothing else; what it can do with it without evaluating the function is not restricted. -/
def outcome {c : Nat} {σ E : Type} (f : E → E) (M : σ → Act c σ E) : (T : Nat) → (s : σ) → Option E
  | 0, s => match M s with
    | .result y => some y
    | .eval _ _ => none
  | T + 1, s => match M s with
    | .result y => some y
    | .eval x next => outcome f M T (next fun i => f (x i))

/-- What the memory costs, added up over the steps until there is a result, but over no more than the first `T` and the memory after them. What a
content of the memory costs is given by `cost`. -/
def spent {c : Nat} {σ E : Type} (f : E → E) (M : σ → Act c σ E) (cost : σ → Nat) : (T : Nat) → (s : σ) → Nat
  | 0, s => cost s
  | T + 1, s => cost s + match M s with
    | .result _ => 0
    | .eval x next => spent f M cost T (next fun i => f (x i))

/-- Each of the `N` numbers of entries comes from the same number of values of `X`. -/
def Balanced {w : Nat} (index : Entry w → Nat) (N : Nat) : Prop :=
  ∀ j < N, N * (Finset.univ.filter fun X => index X % N = j).card = Fintype.card (Entry w)

/-- What is in the memory of the one who keeps `p` entries, every `k`-th of them. While the table is filled: the entries kept, `V[i]` and `i`.
In the second loop: the entries kept, `X`, an entry, the number of iterations done, and how far from this entry the one that is looked for is. -/
abbrev Memory (w p k N : Nat) :=
  (Fin p → Entry w) × Entry w × Fin N ⊕ (Fin p → Entry w) × Entry w × Entry w × Fin (N + 1) × Fin k

/-- The memory at the beginning of an iteration: the last entry kept before the one that is looked for, and how far it is. -/
def look {w p k N : Nat} (index : Entry w → Nat) (hk : 0 < k) (hN : 0 < N) (h : N = p * k) (kept : Fin p → Entry w) (X : Entry w)
    (c : Fin (N + 1)) : Memory w p k N :=
  .inr (kept, X, kept ⟨index X % N / k, Nat.div_lt_of_lt_mul (by rw [Nat.mul_comm, ← h]; exact Nat.mod_lt _ hN)⟩, c,
    ⟨index X % N % k, Nat.mod_lt _ hk⟩)

/-- The one who keeps every `k`-th entry, and evaluates the function on one argument at a time. -/
def keeper {w p k N : Nat} (index : Entry w → Nat) (hk : 0 < k) (hN : 0 < N) (h : N = p * k) : Memory w p k N → Act 1 (Memory w p k N) (Entry w)
  | .inl (kept, X, i) => .eval (fun _ => X) fun y =>
      if h' : i.1 + 1 < N then
        .inl (if (i.1 + 1) % k = 0 then
            Function.update kept ⟨(i.1 + 1) / k, Nat.div_lt_of_lt_mul (by rw [Nat.mul_comm, ← h]; exact h')⟩ (y 0) else kept,
          y 0, ⟨i.1 + 1, h'⟩)
      else look index hk hN h kept (y 0) 0
  | .inr (kept, X, Y, c, l) =>
      if hc : c.1 < N then
        if l.1 = 0 then .eval (fun _ => List.Vector.map₂ (· ^^^ ·) X Y) fun y => look index hk hN h kept (y 0) ⟨c.1 + 1, by omega⟩
        else .eval (fun _ => Y) fun y => .inr (kept, X, y 0, c, ⟨l.1 - 1, by omega⟩)
      else .result X

end Spec.TableMachine
