import Verif.Props.Sha256
import Verif.Props.ShortTags
import Verif.Spec.Chase

/-! Property C127: collisions of shortened digests are found in little memory. -/

namespace Verif.Props.Chase
open Verif Verif.Props.Sha256 Spec.Chase
open Spec.KeyGames (strings)
open Verif.Props.ShortTags (strings_length mem_strings)

/-- The slow and the fast one meet, for the first time after `v` steps; and `w` is the first place after the start from which on walking `v` steps
further makes no difference. -/
theorem meets (x : Nat → List U8) (N : Nat) (hN : ∃ i j, 1 ≤ i ∧ i < j ∧ j ≤ N + 1 ∧ x i = x j) (hx : ∀ i j, x i = x j → x (i + 1) = x (j + 1)) :
    ∃ v w, 1 ≤ v ∧ v ≤ N ∧ x v = x (2 * v) ∧ (∀ k, 1 ≤ k → k < v → x k ≠ x (2 * k)) ∧
      1 ≤ w ∧ w ≤ v ∧ x w = x (v + w) ∧ ∀ k, 1 ≤ k → k < w → x k ≠ x (v + k) := by
  obtain ⟨i, j, h1, h2, h3, h4⟩ := hN
  have per (k : Nat) : x (i + k) = x (j + k) := by
    induction k with
    | zero => exact h4
    | succ k ih => exact hx _ _ ih
  have pers (k m : Nat) : x (i + k + m * (j - i)) = x (i + k) := by
    induction m with
    | zero => simp
    | succ m ih =>
      rw [← ih, Nat.succ_mul, show i + k + (m * (j - i) + (j - i)) = j + (k + m * (j - i)) by omega, ← per]
      congr 1
      omega
  have hex : ∃ v, 1 ≤ v ∧ v ≤ N ∧ x v = x (2 * v) := by
    obtain ⟨q, hq1, hq2⟩ : ∃ q, i ≤ q * (j - i) ∧ q * (j - i) < j := by
      refine ⟨(i + (j - i) - 1) / (j - i), ?_, ?_⟩
      · have := Nat.div_add_mod (i + (j - i) - 1) (j - i)
        have h := Nat.mod_lt (i + (j - i) - 1) (show 0 < j - i by omega)
        rw [Nat.mul_comm] at this
        omega
      · have := Nat.div_mul_le_self (i + (j - i) - 1) (j - i)
        omega
    refine ⟨q * (j - i), by omega, by omega, ?_⟩
    have := pers (q * (j - i) - i) q
    rw [show i + (q * (j - i) - i) = q * (j - i) by omega] at this
    rw [← this]
    congr 1
    omega
  classical
  have hv := Nat.find_spec hex
  have hvm := fun k => Nat.find_min hex (m := k)
  generalize Nat.find hex = v at hv hvm
  obtain ⟨v1, v2, v3⟩ := hv
  have hex' : ∃ w, 1 ≤ w ∧ x w = x (v + w) := ⟨v, v1, by rw [← Nat.two_mul]; exact v3⟩
  have hle := Nat.find_min' hex' ⟨v1, by rw [← Nat.two_mul]; exact v3⟩
  have hw := Nat.find_spec hex'
  have hwm := fun k => Nat.find_min hex' (m := k)
  generalize Nat.find hex' = w at hw hwm hle
  exact ⟨v, w, v1, v2, v3, fun k k1 k2 e => hvm k k2 ⟨k1, by omega, e⟩, hw.1, hle, hw.2, fun k k1 k2 e => hwm k k2 ⟨k1, e⟩⟩

/-- The search finds two strings that lead to the same one. -/
theorem search_finds (F : List U8 → M (List U8)) (x : Nat → List U8) (hF : ∀ i, F (x i) = .ok (x (i + 1))) (N : Nat)
    (hN : ∃ i j, 1 ≤ i ∧ i < j ∧ j ≤ N + 1 ∧ x i = x j) (h0 : ∀ i, 1 ≤ i → x i ≠ x 0) :
    ∃ a b n k, search F (x 0) n = .ok (.found a b, k) ∧ n ≤ 2 * N ∧ k ≤ 5 * N ∧ a ≠ b ∧ (∃ i, a = x i) ∧ (∃ i, b = x i) ∧ F a = F b := by
  obtain ⟨v, w, v1, v2, v3, v4, w1, w2, w3, w4⟩ := meets x N hN fun i j h => by
    have := hF i
    rw [h, hF] at this
    exact (Except.ok.inj this).symm
  have s1 (k : Nat) (hk : k < v) : search F (x 0) k = .ok (.chase (x k) (x (2 * k)), 3 * k) := by
    induction k with
    | zero => rfl
    | succ k ih =>
      rw [search, ih (by omega)]
      simp only [bind, Except.bind, step, hF]
      rw [if_neg (by exact v4 (k + 1) (by omega) hk)]
      rfl
  have s2 : search F (x 0) v = .ok (.walk (x 0) (x v), 3 * v) := by
    obtain ⟨u, rfl⟩ := Nat.exists_eq_add_of_le' v1
    rw [search, s1 u (by omega)]
    simp only [bind, Except.bind, step, hF]
    rw [if_pos (by exact v3)]
    rfl
  have s3 (k : Nat) (hk : k < w) : search F (x 0) (v + k) = .ok (.walk (x k) (x (v + k)), 3 * v + 2 * k) := by
    induction k with
    | zero => exact s2
    | succ k ih =>
      rw [← Nat.add_assoc, search, ih (by omega)]
      simp only [bind, Except.bind, step, hF]
      rw [if_neg (by exact w4 (k + 1) (by omega) hk)]
      rfl
  obtain ⟨u, rfl⟩ := Nat.exists_eq_add_of_le' w1
  refine ⟨x u, x (v + u), v + u + 1, 3 * v + 2 * u + 2, ?_, by omega, by omega, ?_, ⟨_, rfl⟩, ⟨_, rfl⟩, ?_⟩
  · rw [search, s3 u (by omega)]
    simp only [bind, Except.bind, step, hF]
    rw [if_pos (by exact w3)]
    rfl
  · cases u with
    | zero => exact (h0 v v1).symm
    | succ u => exact w4 _ (by omega) (by omega)
  · rw [hF, hF]
    exact congrArg _ w3

/-- The first `t` bytes of the digest, from `SHA256::new()`, `update` and `digest`. -/
def short (T : Target) (t : Nat) (m : List U8) : M (List U8) := do
  let d ← hashChunks T [m]
  return d.take t

theorem sha256_length (m : List U8) : (Spec.Sha256.sha256 m).length = 32 :=
  Verif.Sha256.sha256_length m

/-- **C127.** Of every SHA-256 digest, only the first `t` bytes are used. Started with any message that has not just `t` bytes, the search
finds two different messages with the same `t` bytes. It keeps two strings besides the start, and computes at most
`5 * 2 ^ (8 * t)` digests. -/
theorem C127_found (T : Target) (t : Nat) (ht : t ≤ 32) (start : List U8) (hs : 8 * start.length < 2 ^ T.bits) (hst : start.length ≠ t) :
    ∃ (a b d e : List U8) (n k : Nat), search (short T t) start n = .ok (.found a b, k) ∧ n ≤ 2 * 2 ^ (8 * t) ∧ k ≤ 5 * 2 ^ (8 * t) ∧
      a ≠ b ∧ hashChunks T [a] = .ok d ∧ hashChunks T [b] = .ok e ∧ d.take t = e.take t := by
  have hT := T.two_pow_ge
  obtain ⟨f, hf⟩ : ∃ f : List U8 → List U8, ∀ m, f m = (Spec.Sha256.sha256 m).take t := ⟨_, fun _ => rfl⟩
  have hlen (m : List U8) : (f m).length = t := by rw [hf, List.length_take, sha256_length]; omega
  have hh (m : List U8) (hm : 8 * m.length < 2 ^ T.bits) : hashChunks T [m] = .ok (Spec.Sha256.sha256 m) := by
    have := C01_sha256_correct T [m] (by simpa using hm)
    simpa using this
  have hx (i : Nat) : 8 * (f^[i] start).length < 2 ^ T.bits := by
    cases i with
    | zero => exact hs
    | succ i => rw [Function.iterate_succ_apply', hlen]; omega
  have hF (i : Nat) : short T t (f^[i] start) = .ok (f^[i + 1] start) := by
    rw [short, hh _ (hx i), Function.iterate_succ_apply', hf]
    rfl
  have hN : ∃ i j, 1 ≤ i ∧ i < j ∧ j ≤ 2 ^ (8 * t) + 1 ∧ f^[i] start = f^[j] start := by
    obtain ⟨i, hi, j, hj, hij, e⟩ := Finset.exists_ne_map_eq_of_card_lt_of_maps_to (s := Finset.range (2 ^ (8 * t) + 1)) (t := (strings t).toFinset)
      (f := fun i => f^[i + 1] start) (by
        rw [Finset.card_range]
        exact lt_of_le_of_lt (List.toFinset_card_le _) (by rw [strings_length]; omega)) fun i _ => by
        simp only [Function.iterate_succ_apply', Finset.mem_coe, List.mem_toFinset]
        have := mem_strings (f (f^[i] start))
        rwa [hlen] at this
    rw [Finset.mem_range] at hi hj
    rcases Nat.lt_or_gt_of_ne hij with h | h
    · exact ⟨i + 1, j + 1, by omega, by omega, by omega, e⟩
    · exact ⟨j + 1, i + 1, by omega, by omega, by omega, e.symm⟩
  obtain ⟨a, b, n, k, h1, h2, h3, h4, ⟨i, rfl⟩, ⟨j, rfl⟩, h5⟩ := search_finds (short T t) (fun i => f^[i] start) hF _ hN fun i hi e => by
    obtain ⟨u, rfl⟩ := Nat.exists_eq_add_of_le' hi
    have := congrArg List.length e
    simp only [Function.iterate_succ_apply', hlen, Function.iterate_zero, id] at this
    exact hst this.symm
  refine ⟨_, _, _, _, n, k, h1, h2, h3, h4, hh _ (hx i), hh _ (hx j), ?_⟩
  rw [hF, hF] at h5
  have := Except.ok.inj h5
  rwa [Function.iterate_succ_apply', Function.iterate_succ_apply', hf, hf] at this

/-- Four bytes of each digest, and a start of three bytes. -/
example (T : Target) := C127_found T 4 (by decide) [1, 2, 3] (by have := T.two_pow_ge; simp; omega) (by decide)

end Verif.Props.Chase
