import Verif.Proof.TableGames
import Verif.Props.Locked

/-!
Property C112: the table of scrypt has to be kept. Who keeps less than the whole of it has to evaluate scryptBlockMix again and again to find the
entries that the second loop looks up, if scryptBlockMix is taken for a random function: with half the memory this takes twice as long on average,
and so on. The table, and those who do not keep it, are in `Spec/TableGames.lean`.
-/

namespace Verif.Props.TableMemory
open Verif Verif.Source Verif.Props.Source Verif.Props.FromText Verif.Props.ScryptKeys Spec.TableGames
open Verif.Text hiding functions fill
open Spec.ScryptGames (Params)
open Spec.Games (avg avg_mono)

attribute [local irreducible] avg

/-! ### What the program does -/

theorem toList_ofList (w : Nat) (l : List U8) (h : l.length = w) : (ofList w l).toList = l := by
  refine List.ext_getElem (by simp [h]) fun i h1 h2 => ?_
  simp [ofList, List.getD_eq_getElem?_getD, List.getElem?_eq_getElem h2]

theorem toList_blockMix (r : Nat) (X : Entry (128 * r)) : (blockMix r X).toList = Spec.Scrypt.blockMix r X.toList :=
  toList_ofList _ _ (Scrypt.blockMix_length _ _)

theorem toList_entry (r : Nat) (B : Entry (128 * r)) (i : Nat) : (entry (blockMix r) B i).toList = Spec.Scrypt.V r B.toList i := by
  induction i with
  | zero => rfl
  | succ i ih => rw [entry, toList_blockMix, ih, Spec.Scrypt.V]

theorem toList_map₂ (w : Nat) (x y : Entry w) : (List.Vector.map₂ (· ^^^ ·) x y).toList = Spec.xorBytes x.toList y.toList := by
  obtain ⟨x, hx⟩ := x
  obtain ⟨y, hy⟩ := y
  rfl

theorem toList_state (r N : Nat) (B : Entry (128 * r)) (k : Nat) :
    (state (blockMix r) (fun X => Spec.Scrypt.integerify r X.toList) N B k).toList = Spec.Scrypt.X r N B.toList k := by
  induction k with
  | zero => exact toList_entry r B N
  | succ k ih => rw [state, toList_blockMix, toList_map₂, toList_entry, ih, Spec.Scrypt.X]

/-- **C112.** The table is that of the program: a key derived by `Scrypt` of the program in the text is made by PBKDF2 of the results of `p` times
the function `roMix` of `Spec/TableGames.lean`, with scryptBlockMix in the place of the function `f`. -/
theorem C112_program {p : Program} (hp : IsProgram Files.lib sources p) (T : Target) (fuel depth : Nat) (hd : 8 ≤ depth) (P : Params)
    (hU : Usable T P) (password salt : List U8) (hP : 8 * password.length < 2 ^ T.bits) (len : Nat) (hok : Possible T salt len) :
    kdf p T fuel depth P password salt len =
      Spec.Pbkdf2.pbkdf2HmacSha256 password ((List.range P.p).flatMap fun i =>
        (roMix (blockMix P.r) (fun X => Spec.Scrypt.integerify P.r X.toList) P.N
          (ofList (128 * P.r) (((Spec.Pbkdf2.pbkdf2HmacSha256 password salt 1 P.size).drop (128 * P.r * i)).take (128 * P.r)))).toList) 1 len := by
  rw [kdf_eq hp T fuel depth hd P hU password salt hP len hok, Spec.Scrypt.scrypt, Spec.Scrypt.scryptWith]
  congr 1
  refine List.flatMap_congr fun i hi => ?_
  rw [List.mem_range] at hi
  rw [roMix, toList_state, toList_ofList, Spec.Scrypt.roMix]
  · rfl
  · have : 128 * P.r * (i + 1) ≤ 128 * P.r * P.p := Nat.mul_le_mul_left _ hi
    have hs : P.size = 128 * P.r * P.p := by rw [Params.size]; ring
    rw [List.length_take, List.length_drop, Locked.pbkdf2_length, hs]
    rw [Nat.mul_add] at this
    omega

/-! ### The price of memory -/

/-- **C112.** The trade-off: let someone keep `s`, one of the values of a finite type, which may depend on the whole table in any way, and look
for the entries of the table of size `N` one by one, with at most `q` evaluations each. If `n` entries are found then this takes at least
`n * (n / p - 1) / 2` evaluations altogether, except with a small probability, where `p` is the number of entries that can be kept, or a little
more: the probability is small if `(|E| / (2 * (N * (q + 1)) ^ 2)) ^ p` is larger than the number of values that `s` can have. -/
theorem C112_tradeoff (w : Nat) {σ : Type} [Fintype σ] (B : Entry w) (N q p : Nat) (a : σ → Fin N → Algorithm (Entry w))
    (ha : ∀ s j, (a s j).Within q) :
    (avg fun f : Entry w → Entry w =>
      if ∃ s, p * (2 * total f (a s) (found f B (a s)) + (found f B (a s)).card) < (found f B (a s)).card * (found f B (a s)).card
      then 1 else 0) ≤
      (N : ℚ) * N / Fintype.card (Entry w) + Fintype.card σ * (2 * ((N : ℚ) * (q + 1)) ^ 2 / Fintype.card (Entry w)) ^ p :=
  haveI : Nonempty (Entry w) := ⟨B⟩
  tradeoff B N q p a ha _ fun _ h => h

/-- **C112.** The same in octets: who keeps `M` octets, where `M + 8` is at most `p * (128 * r - 17)`, finds `n` of the entries with no less than
`n * (n / p - 1) / 2` evaluations of scryptBlockMix altogether, except with a probability of `1 / 2 ^ 63` at most. -/
theorem C112_octets (r M : Nat) (hr : 1 ≤ r) (B : Entry (128 * r)) (N q p : Nat) (hq : N * (q + 1) ≤ 2 ^ 64) (hM : M + 8 ≤ p * (128 * r - 17))
    (a : List.Vector U8 M → Fin N → Algorithm (Entry (128 * r))) (ha : ∀ s j, (a s j).Within q) :
    (avg fun f : Entry (128 * r) → Entry (128 * r) =>
      if ∃ s, p * (2 * total f (a s) (found f B (a s)) + (found f B (a s)).card) < (found f B (a s)).card * (found f B (a s)).card
      then 1 else 0) ≤ (1 : ℚ) / 2 ^ 63 := by
  refine (C112_tradeoff (128 * r) B N q p a ha).trans ?_
  have hU : Fintype.card U8 = 2 ^ 8 := (Fintype.ofEquiv_card _).trans (Fintype.card_fin _)
  have hc (w : Nat) : Fintype.card (List.Vector U8 w) = 2 ^ (8 * w) := by rw [card_vector, hU, ← pow_mul]
  rw [hc, hc]
  have hq' : (N : ℚ) * (q + 1) ≤ 2 ^ 64 := by exact_mod_cast hq
  have h0 : (0 : ℚ) ≤ (N : ℚ) * (q + 1) := by positivity
  have hN : (N : ℚ) ≤ 2 ^ 64 := by exact_mod_cast le_trans (Nat.le_mul_of_pos_right N (Nat.succ_pos q)) hq
  have e : (2 : ℚ) ^ (8 * (128 * r)) = 2 ^ (8 * (128 * r - 17)) * 2 ^ 136 := by
    rw [← pow_add]
    congr 1
    omega
  have hbig : (2 : ℚ) ^ 56 ≤ 2 ^ (8 * (128 * r - 17)) := pow_le_pow_right₀ (by norm_num) (by omega)
  have h1 : (N : ℚ) * N / (2 ^ (8 * (128 * r)) : Nat) ≤ 1 / 2 ^ 64 := by
    push_cast
    rw [e, div_le_div_iff₀ (by positivity) (by positivity), one_mul]
    calc (N : ℚ) * N * 2 ^ 64 ≤ 2 ^ 64 * 2 ^ 64 * 2 ^ 64 := by gcongr
      _ ≤ 2 ^ 56 * 2 ^ 136 := by norm_num
      _ ≤ _ := by gcongr
  have h2 : (2 * ((N : ℚ) * (q + 1)) ^ 2 / (2 ^ (8 * (128 * r)) : Nat)) ^ p ≤ 1 / 2 ^ (8 * (M + 8)) := by
    have h3 : 2 * ((N : ℚ) * (q + 1)) ^ 2 / (2 ^ (8 * (128 * r)) : Nat) ≤ 1 / 2 ^ (8 * (128 * r - 17)) := by
      push_cast
      rw [e, div_le_div_iff₀ (by positivity) (by positivity), one_mul, mul_comm (2 ^ (8 * (128 * r - 17)))]
      gcongr
      calc 2 * ((N : ℚ) * (q + 1)) ^ 2 ≤ 2 * (2 ^ 64) ^ 2 := by gcongr
        _ ≤ 2 ^ 136 := by norm_num
    refine (pow_le_pow_left₀ (by positivity) h3 p).trans ?_
    rw [div_pow, one_pow, ← pow_mul]
    refine one_div_le_one_div_of_le (by positivity) (pow_le_pow_right₀ (by norm_num) ?_)
    rw [Nat.mul_assoc, Nat.mul_comm _ p]
    exact Nat.mul_le_mul_left _ hM
  have h3 : ((2 ^ (8 * M) : Nat) : ℚ) * (2 * ((N : ℚ) * (q + 1)) ^ 2 / (2 ^ (8 * (128 * r)) : Nat)) ^ p ≤ 1 / 2 ^ 64 := by
    refine (mul_le_mul_of_nonneg_left h2 (by positivity)).trans_eq ?_
    push_cast
    rw [Nat.mul_add, pow_add]
    field_simp
  refine (add_le_add h1 h3).trans_eq ?_
  norm_num

/-- **C112.** It does not take more: who keeps every `k`-th entry finds each of them, with fewer than `k` evaluations, and the trade-off is an
equation, whatever the function is. -/
theorem C112_strategy (w k p N : Nat) (hk : 1 ≤ k) (h : N = p * k) (B : Entry w) (f : Entry w → Entry w) :
    (∀ kept j, (fromKept (E := Entry w) k h kept j).Within (k - 1)) ∧
    ∃ kept : Fin p → Entry w, found f B (fromKept k h kept) = Finset.univ ∧ p * (2 * total f (fromKept k h kept) Finset.univ + N) = N * N := by
  refine ⟨fun kept j => ?_, fun i => entry f B (k * i), ?_, ?_⟩
  · have hm := Nat.mod_lt j.1 hk
    exact within_mono (climb_within _ _) (by omega)
  · refine Finset.eq_univ_of_forall fun j => Finset.mem_filter.2 ⟨Finset.mem_univ _, ?_⟩
    rw [fromKept, climb_run, Nat.div_add_mod]
  · have h1 : total f (fromKept k h fun i => entry f B (k * i)) Finset.univ = ∑ j ∈ Finset.range N, j % k := by
      rw [total, Finset.sum_range]
      exact Finset.sum_congr rfl fun j _ => climb_time _ _ _
    have h2 := sum_mod p k
    rw [← h] at h2
    rw [h1, h2, h]
    ring

/-! ### A case -/

/-- Who keeps every second entry, in octets, for `r = 8` and `N = 16384`: 8 MiB instead of 16. -/
def exampleAttacker (s : List.Vector U8 8388608) (j : Fin 16384) : Algorithm (Entry (128 * 8)) :=
  climb (j % 2) (ofList (128 * 8) ((s.toList.drop (1024 * (j / 2))).take 1024))

example (B : Entry (128 * 8)) := C112_octets 8 8388608 (by decide) B 16384 1 8331 (by decide) (by decide) exampleAttacker fun s j =>
  within_mono (climb_within _ _) (by omega)

example (B : Entry 1024) := C112_tradeoff 1024 B 16384 1 8331 exampleAttacker fun s j => within_mono (climb_within _ _) (by omega)

example (B : Entry 1024) (f : Entry 1024 → Entry 1024) := C112_strategy 1024 2 8192 16384 (by decide) rfl B f

example (T : Target) := C112_program C86_text.1 T 0 8 le_rfl ⟨8, 1024, 16⟩ (by
    have hT : 2 ^ 31 - 1 ≤ T.isizeMax := by rcases T.bits_cases with h | h <;> simp [Target.isizeMax, h]
    have hB := T.two_pow_ge
    exact ⟨by decide, ⟨10, rfl⟩, by decide, by simp [Params.size]; omega, by rcases T with ⟨_ | _, _ | _⟩ <;> decide, by simp [Params.size]; omega, by decide⟩)
  [1, 2] [3] (by have := T.two_pow_ge; simp; omega) 64
  (by
    have hB := T.two_pow_ge
    have hT : 2 ^ 31 - 1 ≤ T.isizeMax := by rcases T.bits_cases with h | h <;> simp [Target.isizeMax, h]
    exact ⟨by simp; omega, by omega⟩)

end Verif.Props.TableMemory
