import Verif.Props.AfterPanic
import Verif.Props.SourceCbc

/-!
C85: objects do not disturb each other. Calls on any number of objects in any order give every object the answers it would give alone,
also when some of the calls panic and the panics are caught. Methods take `&mut self`, so that two calls on one object cannot overlap, and
calls on different objects share nothing but the constants; so an execution with threads is one of these orders.
-/

namespace Verif.Props.Interleave
open Verif Verif.Source Verif.Props.Source Verif.Props.AfterPanic Spec.Cbc

/-- Calls on the objects of a program, in the order in which they are made; the objects are known by numbers. Each call gives its object's
number and its result or panic. -/
def program (T : Target) (fuel depth : Nat) : (Nat → Val) → List (Nat × Fn × List Val) → List (Nat × Verif.Source.R Val)
  | _, [] => []
  | objs, (i, c) :: cs =>
    (i, (attempt T fuel depth (objs i) c).1) ::
      program T fuel depth (fun j => if j = i then (attempt T fuel depth (objs i) c).2 else objs j) cs

/-- What belongs to object `i`. -/
def of {α : Type} (i : Nat) (l : List (Nat × α)) : List α := (l.filter fun x => x.1 == i).map Prod.snd

theorem of_cons_self {α : Type} (i : Nat) (a : α) (l : List (Nat × α)) : of i ((i, a) :: l) = a :: of i l := by
  simp [of]

theorem of_cons_other {α : Type} {i j : Nat} (h : j ≠ i) (a : α) (l : List (Nat × α)) : of i ((j, a) :: l) = of i l := by
  simp [of, h]

/-- **C85.** In every order of calls on any objects, object `i` answers as if only its own calls were made. -/
theorem C85_alone (T : Target) (fuel depth : Nat) (objs : Nat → Val) (sched : List (Nat × Fn × List Val)) (i : Nat) :
    of i (program T fuel depth objs sched) = attempts T fuel depth (objs i) (of i sched) := by
  induction sched generalizing objs with
  | nil => rfl
  | cons x xs ih =>
    obtain ⟨j, c⟩ := x
    rw [program]
    by_cases h : j = i
    · subst h
      rw [of_cons_self, of_cons_self, ih, attempts, if_pos rfl]
    · rw [of_cons_other h, of_cons_other h, ih, if_neg (Ne.symm h)]

/-- When none of the calls panics, catching changes nothing. -/
theorem attempts_ok (T : Target) (fuel depth : Nat) (obj : Val) (calls : List (Fn × List Val)) (vs : List Val)
    (h : history T fuel depth obj calls = .ok vs) : attempts T fuel depth obj calls = vs.map .ok := by
  induction calls generalizing obj vs with
  | nil => cases h; rfl
  | cons c cs ih =>
    rw [history, invoke] at h
    cases e : call T crate fuel depth c.1 (obj :: c.2) with
    | error => rw [e] at h; cases h
    | ok r =>
      obtain ⟨v, outs⟩ := r
      rw [e] at h
      have hu : callU T crate fuel depth c.1 (obj :: c.2) = (.ok v, outs) := callU_ok (v := v) (outs := outs) e
      match outs with
      | [] =>
        have ha : attempt T fuel depth obj c = (.ok v, obj) := by rw [attempt, hu]
        replace h : (history T fuel depth obj cs >>= fun vs => .ok (v :: vs)) = .ok vs := h
        cases e2 : history T fuel depth obj cs with
        | error => rw [e2] at h; cases h
        | ok ws =>
          rw [e2] at h
          cases h
          rw [attempts, ha, ih _ _ e2]
          rfl
      | [obj'] =>
        have ha : attempt T fuel depth obj c = (.ok v, obj') := by rw [attempt, hu]
        replace h : (history T fuel depth obj' cs >>= fun vs => .ok (v :: vs)) = .ok vs := h
        cases e2 : history T fuel depth obj' cs with
        | error => rw [e2] at h; cases h
        | ok ws =>
          rw [e2] at h
          cases h
          rw [attempts, ha, ih _ _ e2]
          rfl
      | _ :: _ :: _ => cases h

/-- **C85.** The same for objects made by constructors of the crate: object `i` answers what it answers in a session of its own. -/
theorem C85_sessions (T : Target) (fuel depth : Nat) (new : Nat → Fn × List Val) (objs : Nat → Val)
    (hnew : ∀ i, ∃ outs, call T crate fuel depth (new i).1 (new i).2 = .ok (objs i, outs))
    (sched : List (Nat × Fn × List Val)) (i : Nat) :
    caughtSession T fuel depth (new i) (of i sched) = .ok (of i (program T fuel depth objs sched)) := by
  obtain ⟨outs, h⟩ := hnew i
  rw [caughtSession, h, C85_alone]
  rfl

/-- **C85.** Messages encrypted at the same time, each by its own `Cipher` of the source with its own key and initialization vector: in
whatever order the calls are made, the answers of the `Cipher` of every message are the encryption of that message. -/
theorem C85_messages (T : Target) (fuel depth : Nat) (hf : 65 ≤ fuel) (hd : 8 ≤ depth) (iv : Nat → Vector U8 16)
    (key : Nat → List U8) (hk : ∀ i, (key i).length = 16 ∨ (key i).length = 24 ∨ (key i).length = 32)
    (message : Nat → List (List U8)) (hx : ∀ i, ∀ b ∈ message i, b.length + 16 ≤ T.isizeMax) :
    ∃ objs : Nat → Val, (∀ i, ∃ outs, call T crate fuel depth .aes_cbc_Cipher_new [bytes (iv i).toList] = .ok (objs i, outs)) ∧
      ∀ (sched : List (Nat × Fn × List Val)) (i : Nat), of i sched = (messageCalls (key i) (message i)).map cipherCall →
        ∃ (rs : List (List U8)) (last : List U8),
          of i (program T fuel depth objs sched) = .ok (okVal .unit) :: (rs.map (fun o => .ok (okVal (bytes o))) ++ [.ok (okVal (bytes last))]) ∧
          rs.flatten ++ last = encrypt (key i) (iv i).toList (pkcs7 16 (message i).flatten) := by
  obtain ⟨d, rfl⟩ := Nat.exists_eq_add_of_le' hd
  refine ⟨fun i => encCipher (AesCbc.Cipher.new (iv i)), fun i => ⟨[], by rw [src_Cipher_new]⟩, fun sched i hs => ?_⟩
  obtain ⟨rs, last, h1, h2⟩ := C69_source_encrypt T fuel (d + 8) hf (by omega) (iv i) (key i) (hk i) (message i) (hx i)
  refine ⟨rs, last, ?_, h2⟩
  rw [session, src_Cipher_new] at h1
  rw [C85_alone, hs, attempts_ok T fuel (d + 8) _ _ _ h1]
  simp

/-- Two messages whose parts come in turns. -/
example (T : Target) (iv : Nat → Vector U8 16) (k₀ k₁ : List U8) (h₀ : k₀.length = 16) (h₁ : k₁.length = 32) :
    ∃ objs : Nat → Val, (∀ i, ∃ outs, call T crate 65 8 .aes_cbc_Cipher_new [bytes (iv i).toList] = .ok (objs i, outs)) ∧
      ∀ i, i = 0 ∨ i = 1 → ∃ (rs : List (List U8)) (last : List U8),
        of i (program T 65 8 objs
          [(0, .aes_cbc_Cipher_init, [bytes k₀]), (1, .aes_cbc_Cipher_init, [bytes k₁]), (1, .aes_cbc_Cipher_write, [bytes [1, 2]]),
            (0, .aes_cbc_Cipher_write, [bytes [3]]), (1, .aes_cbc_Cipher_write, [bytes [4]]), (1, .aes_cbc_Cipher_flush, []),
            (0, .aes_cbc_Cipher_flush, [])]) =
          .ok (okVal .unit) :: (rs.map (fun o => .ok (okVal (bytes o))) ++ [.ok (okVal (bytes last))]) ∧
        rs.flatten ++ last = encrypt (if i = 0 then k₀ else k₁) (iv i).toList (pkcs7 16 (if i = 0 then [3] else [1, 2, 4])) := by
  have h19 : 19 ≤ T.isizeMax := by
    rcases T with ⟨w, c⟩
    cases w <;> simp [Target.isizeMax, Target.bits, Width.bits]
  obtain ⟨objs, h1, h2⟩ := C85_messages T 65 8 (by omega) (by omega) iv (fun i => if i = 0 then k₀ else k₁)
    (fun i => by split <;> omega) (fun i => if i = 0 then [[3]] else [[1, 2], [4]]) (fun i b hb => by
      split at hb
      · obtain rfl : b = [3] := by simpa using hb
        simp only [List.length_cons, List.length_nil]; omega
      · have : b = [1, 2] ∨ b = [4] := by simpa using hb
        rcases this with rfl | rfl <;> simp only [List.length_cons, List.length_nil] <;> omega)
  refine ⟨objs, h1, fun i hi => ?_⟩
  rcases hi with rfl | rfl
  · exact h2 _ 0 rfl
  · exact h2 _ 1 rfl

end Verif.Props.Interleave
