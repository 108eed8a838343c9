import Verif.Props.Sha256
import Verif.Props.Multicollision
import Verif.Spec.FixedPoint

/-! Property C120: each block leaves exactly one hash value as it is. -/

namespace Verif.Props.FixedPoint
open Verif Verif.Sha256 Spec.Sha256 Verif.Props.Sha256 Verif.Props.Multicollision

theorem last_sub (h s c k w t : U32) : h + s + c + k + w + t - t - s - c - k - w = h := by
  rw [BitVec.add_sub_cancel, show h + s + c + k + w - s = h + c + k + w + s - s by ac_rfl, BitVec.add_sub_cancel,
    show h + c + k + w - c = h + k + w + c - c by ac_rfl, BitVec.add_sub_cancel,
    show h + k + w - k = h + w + k - k by ac_rfl, BitVec.add_sub_cancel, BitVec.add_sub_cancel]

theorem last_add (t s c k w : U32) : t - s - c - k - w + s + c + k + w = t := by
  rw [show t - s - c - k - w + s + c + k + w = t - s - c - k - w + w + k + c + s by ac_rfl, BitVec.sub_add_cancel,
    BitVec.sub_add_cancel, BitVec.sub_add_cancel, BitVec.sub_add_cancel]

theorem unround_round (k w : U32) (s : State) : unround k w (Spec.Sha256.round k w s) = s := by
  apply Vector.ext
  intro i hi
  have h8 : i = 0 ∨ i = 1 ∨ i = 2 ∨ i = 3 ∨ i = 4 ∨ i = 5 ∨ i = 6 ∨ i = 7 := by omega
  rcases h8 with rfl | rfl | rfl | rfl | rfl | rfl | rfl | rfl <;> simp [unround, Spec.Sha256.round]
  · rw [BitVec.add_sub_cancel, BitVec.add_sub_cancel]
  · exact last_sub _ _ _ _ _ _

theorem round_unround (k w : U32) (s : State) : Spec.Sha256.round k w (unround k w s) = s := by
  apply Vector.ext
  intro i hi
  have h8 : i = 0 ∨ i = 1 ∨ i = 2 ∨ i = 3 ∨ i = 4 ∨ i = 5 ∨ i = 6 ∨ i = 7 := by omega
  rcases h8 with rfl | rfl | rfl | rfl | rfl | rfl | rfl | rfl <;>
    simp [unround, Spec.Sha256.round, last_add, BitVec.sub_add_cancel]

theorem unrounds_rounds (m : Nat → U32) (s : State) (n : Nat) : unrounds m (Spec.Sha256.rounds m s n) n = s := by
  induction n with
  | zero => rfl
  | succ n ih => rw [unrounds, Spec.Sha256.rounds, unround_round, ih]

theorem rounds_unrounds (m : Nat → U32) (s : State) (n : Nat) : Spec.Sha256.rounds m (unrounds m s n) n = s := by
  induction n generalizing s with
  | zero => rfl
  | succ n ih => rw [unrounds, Spec.Sha256.rounds, ih, round_unround]

theorem next_eq_self (h : State) (b : Block) : next h b = h ↔ h = fixedPoint b := by
  have h0 : next h b = h ↔ Spec.Sha256.rounds (blockWord b.toList 0) h 64 = Vector.replicate 8 0 := by
    rw [next, compress]
    generalize Spec.Sha256.rounds (blockWord b.toList 0) h 64 = r
    constructor
    · intro e
      apply Vector.ext
      intro i hi
      have := congrArg (fun v : State => v[i]) e
      simpa using this
    · rintro rfl
      apply Vector.ext
      intro i hi
      simp
  rw [h0, fixedPoint]
  constructor
  · intro e
    rw [← e, unrounds_rounds]
  · rintro rfl
    exact rounds_unrounds _ _ _

/-- **C120.** For every block there is exactly one hash value that the block leaves as it is. -/
theorem C120_one (b : Block) : ∃! h : State, next h b = h :=
  ⟨fixedPoint b, (next_eq_self _ b).mpr rfl, fun h e => (next_eq_self h b).mp e⟩

/-- **C120.** It is found with one run of the 64 rounds backwards, and the program agrees: whatever hash value a `SHA256` between two
blocks holds, `update` with one more block, in any pieces, leaves the hash value as it is when it is this one, and else changes it. -/
theorem C120_update (T : Target) (s : SHA256) (hs : s.length % 64 = 0) (b : Block) (hl : s.length + 64 < 2 ^ T.bits)
    (chunks : List (List U8)) (hc : chunks.flatten = b.toList) :
    ∃ s', chunks.foldlM (SHA256.update T) s = .ok s' ∧ s'.length = s.length + 64 ∧ (s'.h = s.h ↔ s.h = fixedPoint b) := by
  have hR : R T s ⟨s.h, [], s.length⟩ := ⟨rfl, (Nat.mod_eq_of_lt (by omega)).symm, by simp [hs], by simp⟩
  obtain ⟨s', e, hR'⟩ := update_R T b.toList s _ hR (.inr (by simpa using hl))
  refine ⟨s', ?_, ?_, ?_⟩
  · rw [C02_update_chunking T s chunks [b.toList] (by simpa using hc)]
    simp only [List.foldlM_cons, List.foldlM_nil, e]
    rfl
  · rw [hR'.len]
    simp only [Machine.absorb, Vector.length_toList]
    exact Nat.mod_eq_of_lt hl
  · rw [hR'.chain, ← next_eq_self s.h b]
    simp only [Machine.absorb, List.nil_append, hashAll_block]

/-- **C120.** So when a message of whole blocks is continued with one block again and again, the hash value stays the same for ever if
it was that one, and else it changes with the first repetition already. -/
theorem C120_repeated (start : List U8) (n : Nat) (hn : start.length = 64 * n) (b : Block) :
    (hashAll initial start = fixedPoint b →
      ∀ i, hashAll initial (start ++ (List.replicate i b.toList).flatten) = hashAll initial start) ∧
    (hashAll initial start ≠ fixedPoint b → hashAll initial (start ++ b.toList) ≠ hashAll initial start) := by
  have hall : ∀ (h : State) (a c : List U8) (m : Nat), a.length = 64 * m → hashAll h (a ++ c) = hashAll (hashAll h a) c := by
    intro h a c m ha
    rw [hashAll_split _ _ _ m ha]
    conv => rhs; rw [hashAll.eq_def h a, ha, Nat.mul_div_cancel_left _ (by decide)]
  refine ⟨fun e i => ?_, fun e => ?_⟩
  · rw [hall _ _ _ n hn]
    have hf : ∀ h, next h b = h → hashAll h (List.replicate i b.toList).flatten = h := by
      intro h e
      induction i with
      | zero => simp [hashAll, hashBlocks]
      | succ i ih => rw [List.replicate_succ, List.flatten_cons, hall _ _ _ 1 (by simp), hashAll_block, e, ih]
    exact hf _ ((next_eq_self _ b).mpr e)
  · rw [hall _ _ _ n hn, hashAll_block]
    exact fun x => e ((next_eq_self _ b).mp x)

/-- A new object whose first block is 64 times the letter `a`: the hash value changes. -/
theorem new_changes : ∀ s', SHA256.update ⟨.w64, true⟩ SHA256.new (List.replicate 64 0x61) = .ok s' → s'.h ≠ SHA256.new.h := by
  have h : (match SHA256.update ⟨.w64, true⟩ SHA256.new (List.replicate 64 0x61) with
      | .ok s' => decide (s'.h[0] = SHA256.new.h[0])
      | .error _ => true) = false := by decide +kernel
  intro s' e x
  rw [e] at h
  simp [x] at h

/-- So for this block the first hash value of every message is not the one that stays the same. -/
example : SHA256.new.h ≠ fixedPoint (Vector.replicate 64 0x61) := by
  obtain ⟨s', e, _, h⟩ := C120_update ⟨.w64, true⟩ SHA256.new (by decide) (Vector.replicate 64 0x61) (by decide)
    [List.replicate 64 0x61] (by simp)
  refine fun x => new_changes s' ?_ (h.mpr x)
  simp only [List.foldlM_cons, List.foldlM_nil] at e
  cases hu : SHA256.update ⟨.w64, true⟩ SHA256.new (List.replicate 64 0x61) with
  | ok t => rw [hu] at e; exact e
  | error p => rw [hu] at e; cases e

/-- An object that holds that hash value keeps it, and goes on counting bytes. -/
example (b : Block) : ∃ s', SHA256.update ⟨.w32, true⟩ { SHA256.new with h := fixedPoint b } b.toList = .ok s' ∧
    s'.h = fixedPoint b ∧ s'.length = 64 := by
  obtain ⟨s', e, hl, h⟩ := C120_update ⟨.w32, true⟩ { SHA256.new with h := fixedPoint b } rfl b
    (show 0 + 64 < 2 ^ 32 by decide) [b.toList] (by simp)
  refine ⟨s', ?_, h.mpr rfl, hl⟩
  simp only [List.foldlM_cons, List.foldlM_nil] at e
  cases hu : SHA256.update ⟨.w32, true⟩ { SHA256.new with h := fixedPoint b } b.toList with
  | ok t => rw [hu] at e; exact e
  | error p => rw [hu] at e; cases e

end Verif.Props.FixedPoint
