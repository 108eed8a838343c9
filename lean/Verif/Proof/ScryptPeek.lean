import Verif.Spec.ScryptPeek
import Verif.Proof.ScryptAttempt

/-!
Reading off the first entry that scrypt takes from its table: what is evaluated, and how often a password that has nothing to do with the entry
passes.
-/

namespace Spec.ScryptPrice
open Spec Spec.Games
open Spec.ScryptGames (Params)
open Spec.Scrypt (block integerify littleEndian)

attribute [local irreducible] avg
set_option linter.constructorNameAsVariable false

variable {β : Type}

theorem advance_within (h c r n : Nat) (X : List Byte) (k : List Byte → Algorithm β) (hk : ∀ X, (k X).Within h c) :
    (advance r n X k).Within h (n * (2 * r) + c) := by
  induction n generalizing X with
  | zero => simpa [advance] using hk X
  | succ n ih =>
    rw [advance, Nat.succ_mul, show n * (2 * r) + 2 * r + c = 2 * r + (n * (2 * r) + c) by omega]
    exact blockMix_within h _ r X _ fun X' => ih _

theorem peek_within (P : Params) (key salt : List Byte) (i : Nat) : (peek P key salt i).Within (4 * P.r) (2 * P.r * P.N) := by
  have := blocks_within 0 (P.N * (2 * P.r) + 0) key salt (4 * P.r * i) (4 * P.r) (fun B => advance P.r P.N B fun X => .result (integerify P.r X % P.N))
    fun B => advance_within 0 0 _ _ _ _ fun X => trivial
  rwa [Nat.add_zero, Nat.add_zero, Nat.mul_comm P.N] at this

theorem random_le_one' (good : β → Bool) (t : Table) (a : Algorithm β) : a.random good t ≤ 1 := by
  rw [random_eq]
  exact ex_le_const fun b t' _ => by split_ifs <;> norm_num

theorem avg_le {α : Type} [Fintype α] [Nonempty α] {f : α → ℚ} {c : ℚ} (h : ∀ a, f a ≤ c) : avg f ≤ c :=
  (avg_mono h).trans_eq (avg_const c)

/-- `n` evaluations of the core, each of the value before, added to something that does not depend on it; then a result that is good with
probability `g`. -/
inductive Steps (good : β → Bool) (g : ℚ) : Nat → (Cell → Algorithm β) → Prop
  | last (f : Cell → Algorithm β) (r : Cell → β) (hf : ∀ y, f y = .result (r y)) (h : (avg fun y => if good (r y) then (1 : ℚ) else 0) ≤ g) :
      Steps good g 0 f
  | step (n : Nat) (f : Cell → Algorithm β) (b : List Byte) (hb : b.length = 64) (f' : Cell → Cell → Algorithm β)
      (hf : ∀ y, f y = .eval (.core (xorBytes y.toList b)) (f' y)) (h : ∀ y, Steps good g n (f' y)) : Steps good g (n + 1) f

theorem avg_xor_mem (b : List Byte) (hb : b.length = 64) (K : List (List Byte)) :
    (avg fun y : Cell => ind (xorBytes y.toList b ∈ K)) ≤ K.length / 2 ^ 512 := by
  classical
  rw [avg_ind, card_cell, Nat.cast_pow, Nat.cast_ofNat]
  refine div_le_div_of_nonneg_right (Nat.cast_le.2 (le_trans ?_ (List.toFinset_card_le K))) (by positivity)
  refine Finset.card_le_card_of_injOn (fun y => xorBytes y.toList b) (fun y hy => ?_) fun y _ y' _ e => ?_
  · rw [Finset.mem_coe, Finset.mem_filter] at hy
    rw [Finset.mem_coe, List.mem_toFinset]
    exact hy.2
  · exact List.Vector.toList_injective (xor_cancel _ _ b (by simp [hb]) (by simp [hb]) e)

theorem steps_nonneg (good : β → Bool) (g : ℚ) (n : Nat) (f : Cell → Algorithm β) (hf : Steps good g n f) : 0 ≤ g := by
  induction hf with
  | last f r hf h => exact le_trans (avg_nonneg fun y => by split_ifs <;> norm_num) h
  | step n f b hb f' hf h ih => exact ih (List.Vector.replicate _ 0)

/-- The evaluations of the core whose values have been drawn are among `K`. -/
def CoresIn (t : Table) (K : List (List Byte)) : Prop := ∀ x, t (.core x) ≠ none → x ∈ K

theorem coresIn_update {t : Table} {K : List (List Byte)} (h : CoresIn t K) (q : List Byte) (y : Cell) :
    CoresIn (Function.update t (.core q) (some y)) (q :: K) := fun x hx => by
  by_cases hxq : x = q
  · simp [hxq]
  · rw [Function.update_of_ne (by simpa using hxq)] at hx
    exact List.mem_cons_of_mem _ (h _ hx)

/-- One evaluation: either its value has been drawn before, or it is random. -/
theorem step_le (good : β → Bool) (g c : ℚ) (hg : 0 ≤ g) (hc : 0 ≤ c) (t : Table) (K : List (List Byte)) (hK : CoresIn t K) (z : List Byte) (f : Cell → Algorithm β)
    (hf : (avg fun y : Cell => (f y).random good (Function.update t (.core z) (some y))) ≤ g + c) :
    (Algorithm.eval (.core z) f).random good t ≤ ind (z ∈ K) + (g + c) := by
  by_cases hm : z ∈ K
  · rw [ind_pos hm]
    have := random_le_one' good t (.eval (.core z) f)
    linarith
  · have hnone : t (.core z) = none := by
      by_contra hn
      exact hm (hK _ hn)
    rw [ind_neg hm, zero_add, Algorithm.random.eq_def]
    simp only [hnone]
    exact hf

/-- The chance of a good result, when the messages whose values have been drawn are among `K`, and the value before is random. -/
theorem steps_random (good : β → Bool) (g : ℚ) (n : Nat) (f : Cell → Algorithm β) (hf : Steps good g n f) (K : List (List Byte))
    (t : Cell → Table) (hK : ∀ y, CoresIn (t y) K) :
    (avg fun y : Cell => (f y).random good (t y)) ≤ g + n * (K.length + n) / 2 ^ 512 := by
  induction hf generalizing K t with
  | last f r hf h =>
    refine le_trans (le_of_eq ?_) (h.trans_eq (by simp))
    refine congrArg avg (funext fun y => ?_)
    rw [hf, Algorithm.random]
  | step n f b hb f' hf h ih =>
    have h1 (y : Cell) : (f y).random good (t y) ≤
        ind (xorBytes y.toList b ∈ K) + (g + n * ((K.length + 1 : Nat) + n) / 2 ^ 512) := by
      rw [hf]
      exact step_le good g _ (steps_nonneg good g _ _ (h y)) (by positivity) _ K (hK y) _ _
        (ih y (xorBytes y.toList b :: K) _ fun y' => coresIn_update (hK y) _ y')
    refine (avg_mono h1).trans ?_
    rw [avg_add, avg_const]
    have h2 := avg_xor_mem b hb K
    have h4 : (K.length : ℚ) / 2 ^ 512 + n * ((K.length + 1 : Nat) + n) / 2 ^ 512 ≤ (n + 1 : Nat) * (K.length + (n + 1 : Nat)) / 2 ^ 512 := by
      rw [← add_div]
      refine div_le_div_of_nonneg_right ?_ (by positivity)
      push_cast
      nlinarith [Nat.cast_nonneg (α := ℚ) n, Nat.cast_nonneg (α := ℚ) K.length]
    linarith

theorem steps_chain (good : β → Bool) (g : ℚ) (m : Nat) (k : List (List Byte) → Algorithm β) (bs ys : List (List Byte))
    (hb : ∀ b ∈ bs, b.length = 64) (hy : ∀ y ∈ ys, y.length = 64)
    (hk : ∀ acc : List (List Byte), acc.length = ys.length + bs.length → (∀ y ∈ acc, y.length = 64) →
      Steps good g m fun y => k (acc ++ [y.toList])) :
    Steps good g (m + bs.length) fun y => chain y.toList bs (ys ++ [y.toList]) k := by
  induction bs generalizing ys with
  | nil => exact hk ys rfl hy
  | cons b bs ih =>
    refine .step _ _ b (hb b (by simp)) (fun y y' => chain y'.toList bs (ys ++ [y.toList] ++ [y'.toList]) k) (fun y => rfl) fun y => ?_
    refine ih (ys ++ [y.toList]) (fun b hb' => hb b (by simp [hb'])) (fun z hz => ?_) fun acc ha => ?_
    · rw [List.mem_append, List.mem_singleton] at hz
      rcases hz with h | rfl
      · exact hy z h
      · simp
    · exact hk acc (by rw [ha]; simp; omega)

theorem littleEndian_inj (a b : List Byte) (h : a.length = b.length) (e : littleEndian a = littleEndian b) : a = b := by
  induction a generalizing b with
  | nil => exact (List.length_eq_zero_iff.1 h.symm).symm
  | cons x a ih =>
    cases b with
    | nil => simp at h
    | cons y b =>
      rw [littleEndian, littleEndian] at e
      have hx := x.isLt
      have hy := y.isLt
      rw [ih b (by simpa using h) (by omega), BitVec.eq_of_toNat_eq (show x.toNat = y.toNat by omega)]

theorem littleEndian_lt (a : List Byte) : littleEndian a < 2 ^ (8 * a.length) := by
  induction a with
  | nil => simp [littleEndian]
  | cons x a ih =>
    rw [littleEndian, List.length_cons, Nat.mul_add, Nat.pow_add]
    have := x.isLt
    omega

theorem avg_entry (e : Nat) (he : e ≤ 512) (v : Nat) :
    (avg fun y : Cell => if littleEndian y.toList % 2 ^ e = v then (1 : ℚ) else 0) ≤ 1 / 2 ^ e := by
  classical
  have h := avg_mem_card (Finset.univ.filter fun y : Cell => littleEndian y.toList % 2 ^ e = v)
  simp only [Finset.mem_filter, Finset.mem_univ, true_and] at h
  rw [card_cell, Nat.cast_pow, Nat.cast_ofNat] at h
  rw [h]
  have hc : (Finset.univ.filter fun y : Cell => littleEndian y.toList % 2 ^ e = v).card ≤ 2 ^ (512 - e) := by
    rw [← Finset.card_range (2 ^ (512 - e))]
    refine Finset.card_le_card_of_injOn (fun y => littleEndian y.toList / 2 ^ e) (fun y hy => ?_) fun y hy y' hy' hq => ?_
    · have hl := littleEndian_lt y.toList
      rw [List.Vector.toList_length] at hl
      rw [Finset.coe_range, Set.mem_Iio, Nat.div_lt_iff_lt_mul (by positivity), ← Nat.pow_add, Nat.sub_add_cancel he]
      exact hl
    · simp only [Finset.coe_filter, Finset.mem_univ, true_and, Set.mem_ofPred_eq] at hy hy'
      have e1 := Nat.div_add_mod (littleEndian y.toList) (2 ^ e)
      have e2 := Nat.div_add_mod (littleEndian y'.toList) (2 ^ e)
      simp only at hq
      rw [hq, hy, ← hy', e2] at e1
      exact List.Vector.toList_injective (littleEndian_inj _ _ (by simp) e1.symm)
  rw [div_le_div_iff₀ (by positivity) (by positivity), one_mul, show (2 : ℚ) ^ 512 = 2 ^ (512 - e) * 2 ^ e by rw [← pow_add, Nat.sub_add_cancel he]]
  exact mul_le_mul_of_nonneg_right (by exact_mod_cast hc) (by positivity)

theorem steps_advance (r e : Nat) (hr : 1 ≤ r) (he : e ≤ 512) (v n : Nat) (acc : List (List Byte)) (ha : Values r acc) :
    Steps (fun j : Nat => decide (j = v)) (1 / 2 ^ e) (n * (2 * r)) fun y => advance r n (shuffle r (acc ++ [y.toList])) fun X => .result (integerify r X % 2 ^ e) := by
  induction n generalizing acc with
  | zero =>
    rw [Nat.zero_mul]
    refine .last _ (fun y => littleEndian y.toList % 2 ^ e) (fun y => ?_) ?_
    · rw [advance, integerify, (shuffle_facts r hr acc ha y).2.1]
    · simpa using avg_entry e he v
  | succ n ih =>
    obtain ⟨s, rfl⟩ : ∃ s, r = s + 1 := ⟨r - 1, by omega⟩
    let k : List (List Byte) → Algorithm Nat := fun ys => advance (s + 1) n (shuffle (s + 1) ys) fun X => .result (integerify (s + 1) X % 2 ^ e)
    let B (y : Cell) := shuffle (s + 1) (acc ++ [y.toList])
    let bs (y : Cell) : List (List Byte) := (List.range' 1 (2 * s + 1)).map (block (B y))
    have h0 : (acc.getD 0 []).length = 64 := by
      have := ha.1
      rw [List.getD_eq_getElem?_getD, List.getElem?_eq_getElem (by omega), Option.getD_some]
      exact ha.2 _ (List.getElem_mem _)
    rw [show (n + 1) * (2 * (s + 1)) = (n * (2 * (s + 1)) + (2 * s + 1)) + 1 by ring]
    refine .step _ _ (acc.getD 0 []) h0 (fun y y' => chain y'.toList (bs y) ([] ++ [y'.toList]) k) (fun y => ?_) fun y => ?_
    · rw [advance, blockMix, List.range_eq_range', show 2 * (s + 1) = 2 * s + 1 + 1 by ring, List.range'_succ, List.map_cons, chain,
        show 2 * s + 1 + 1 - 1 = 2 * (s + 1) - 1 by omega, (shuffle_facts (s + 1) hr acc ha y).2.1, (shuffle_facts (s + 1) hr acc ha y).2.2]
      rfl
    · have hl : (bs y).length = 2 * s + 1 := by simp [bs]
      rw [← hl]
      refine steps_chain _ _ _ k (bs y) [] (fun b hb => ?_) (by simp) fun acc' h1 h2 => ih acc' ⟨?_, h2⟩
      · simp only [bs, List.mem_map, List.mem_range'_1] at hb
        obtain ⟨i, hi, rfl⟩ := hb
        exact block_length (s + 1) _ (shuffle_facts (s + 1) hr acc ha y).1 i (by omega)
      · rw [h1, hl]
        simp
        omega

/-- From the first part of `B` on. -/
theorem advance_random (r e : Nat) (hr : 1 ≤ r) (he : e ≤ 512) (v n : Nat) (B : List Byte) (hB : B.length = 128 * r) (t : Table)
    (K : List (List Byte)) (hK : CoresIn t K) :
    (advance r (n + 1) B fun X => .result (integerify r X % 2 ^ e)).random (fun j : Nat => decide (j = v)) t ≤
      ind (xorBytes (block B (2 * r - 1)) (block B 0) ∈ K) +
        (1 / 2 ^ e + (2 * r * (n + 1) - 1 : Nat) * (K.length + 2 * r * (n + 1) : Nat) / 2 ^ 512) := by
  obtain ⟨s, rfl⟩ : ∃ s, r = s + 1 := ⟨r - 1, by omega⟩
  rw [advance, blockMix, List.range_eq_range', show List.range' 0 (2 * (s + 1)) = 0 :: List.range' (0 + 1) (2 * s + 1) from rfl, List.map_cons, chain]
  have hl : ((List.range' (0 + 1) (2 * s + 1)).map (block B)).length = 2 * s + 1 := by simp
  have h := steps_chain (fun j : Nat => decide (j = v)) (1 / 2 ^ e) (n * (2 * (s + 1)))
    (fun ys => advance (s + 1) n (shuffle (s + 1) ys) fun X => .result (integerify (s + 1) X % 2 ^ e))
    ((List.range' (0 + 1) (2 * s + 1)).map (block B)) [] (fun b hb => by
      rw [List.mem_map] at hb
      obtain ⟨i, hi, rfl⟩ := hb
      rw [List.mem_range'_1] at hi
      exact block_length (s + 1) _ hB i (by omega)) (by simp) fun acc h1 h2 => steps_advance (s + 1) e hr he v n acc ⟨by rw [h1, hl]; simp; omega, h2⟩
  have hn : n * (2 * (s + 1)) + (2 * s + 1) + 1 = 2 * (s + 1) * (n + 1) := by ring
  rw [hl] at h
  refine step_le _ _ _ (by positivity) (by positivity) t K hK _ _ ((steps_random _ _ _ _ h _ _ fun y => coresIn_update hK _ y).trans_eq ?_)
  rw [← hn, List.length_cons, Nat.add_sub_cancel]
  push_cast
  ring

theorem coresIn_hmac {t : Table} {K : List (List Byte)} (h : CoresIn t K) (key x : List Byte) (y : List.Vector Byte 32) :
    CoresIn (Function.update t (.hmac key x) (some y)) K := fun z hz => by
  rw [Function.update_of_ne (by simp)] at hz
  exact h z hz

/-- The blocks of PBKDF2 are random; the last two go into the first evaluation of the core. -/
theorem random_blocks (key salt : List Byte) (i l : Nat) (k : List Byte → Algorithm β) (good : β → Bool) (c : ℚ) (b : List Byte → List Byte)
    (hb : ∀ B, B.length = 32 * l → (b B).length = 64) (K : List (List Byte)) (t : Table) (hK : CoresIn t K)
    (hn : ∀ j, i ≤ j → j < i + l + 2 → t (.hmac key (salt ++ beBytes 4 (j + 1))) = none) (hl : i + l + 2 < 2 ^ 32)
    (hk : ∀ (B : List Byte) (y : List Byte) (t : Table), B.length = 32 * l → y.length = 64 → CoresIn t K →
      (k (B ++ y)).random good t ≤ ind (xorBytes y (b B) ∈ K) + c) :
    (blocks key salt i (l + 2) k).random good t ≤ K.length / 2 ^ 512 + c := by
  induction l generalizing i k b t with
  | zero =>
    rw [blocks, Algorithm.random.eq_def]
    simp only [hn i le_rfl (by omega)]
    have h1 (d : List.Vector Byte 32) : Function.update t (.hmac key (salt ++ beBytes 4 (i + 1))) (some d) (.hmac key (salt ++ beBytes 4 (i + 1 + 1))) = none := by
      rw [Function.update_of_ne (number_ne salt (by omega) (by omega) (by omega) key), hn (i + 1) (by omega) (by omega)]
    have h2 (d : List.Vector Byte 32) : (blocks key salt (i + 1) 1 fun rest => k (d.toList ++ rest)).random good
        (Function.update t (.hmac key (salt ++ beBytes 4 (i + 1))) (some d)) ≤
        avg fun d' : List.Vector Byte 32 => ind (xorBytes (d.toList ++ d'.toList) (b []) ∈ K) + c := by
      rw [blocks, Algorithm.random.eq_def]
      simp only [h1]
      refine avg_mono fun d' : List.Vector Byte 32 => ?_
      have := hk [] (d.toList ++ d'.toList) _ rfl (by simp) (coresIn_hmac (coresIn_hmac hK key (salt ++ beBytes 4 (i + 1)) d) key (salt ++ beBytes 4 (i + 1 + 1)) d')
      rw [List.nil_append] at this
      refine le_trans (le_of_eq ?_) this
      rw [blocks, List.append_nil]
      rfl
    refine (avg_mono h2).trans ?_
    have h3 := avg_vector_append 32 32 fun y => ind (xorBytes y (b []) ∈ K) + c
    refine h3.symm.le.trans ?_
    rw [avg_add, avg_const]
    have := avg_xor_mem (b []) (hb [] rfl) K
    exact add_le_add_left this c
  | succ l ih =>
    rw [blocks, Algorithm.random.eq_def]
    simp only [hn i le_rfl (by omega)]
    refine avg_le fun d : List.Vector Byte 32 => ?_
    refine ih (i + 1) _ (fun B => b (d.toList ++ B)) (fun B hB => hb _ (by simp [hB]; omega)) _ (coresIn_hmac hK _ _ d) (fun j h1 h2 => ?_) (by omega)
      fun B y t' hB hy ht' => ?_
    · rw [Function.update_of_ne (number_ne salt (by omega) (by omega) (by omega) key), hn j (by omega) (by omega)]
    · have := hk (d.toList ++ B) y t' (by simp [hB]; omega) hy ht'
      rwa [List.append_assoc] at this

/-- The number of an entry for a password of which nothing has been evaluated. -/
theorem peek_random (r e p : Nat) (hr : 1 ≤ r) (he : e ≤ 512) (key salt : List Byte) (i v : Nat) (hi : 4 * r * i + 4 * r < 2 ^ 32)
    (K : List (List Byte)) (t : Table) (hK : CoresIn t K) (ht : ∀ x, t (.hmac key x) = none) :
    (peek ⟨r, 2 ^ e, p⟩ key salt i).random (fun j : Nat => decide (j = v)) t ≤ 
      1 / 2 ^ e + (2 * r * 2 ^ e) * (K.length + 2 * r * 2 ^ e) / 2 ^ 512 := by
  obtain ⟨l, hl⟩ : ∃ l, 4 * r = l + 2 := ⟨4 * r - 2, by omega⟩
  obtain ⟨n, hn⟩ : ∃ n, 2 ^ e = n + 1 := ⟨2 ^ e - 1, (Nat.sub_add_cancel Nat.one_le_two_pow).symm⟩
  obtain ⟨m, hm⟩ : ∃ m, 2 * r * 2 ^ e = m + 1 := ⟨2 * r * 2 ^ e - 1, (Nat.sub_add_cancel (Nat.mul_pos (by omega) (by positivity))).symm⟩
  have h := random_blocks key salt (4 * r * i) l (fun B => advance r (2 ^ e) B fun X => .result (integerify r X % 2 ^ e)) (fun j : Nat => decide (j = v))
    (1 / 2 ^ e + m * (K.length + (m + 1 : Nat)) / 2 ^ 512) (fun B => block B 0) (fun B hB => by rw [block]; simp; omega) K t hK (fun j _ _ => ht _) (by omega)
    fun B y t' hB hy ht' => by
      have hx : block (B ++ y) (2 * r - 1) = y := by
        rw [block, List.drop_append_of_le_length (by omega), List.drop_of_length_le (by omega), List.nil_append, List.take_of_length_le hy.le]
      have h0 : block (B ++ y) 0 = block B 0 := by
        rw [block, block, Nat.mul_zero, List.drop_zero, List.drop_zero, List.take_append_of_le_length (by omega)]
      have := advance_random r e hr he v n (B ++ y) (by simp; omega) t' K ht'
      rw [hx, h0, ← hn, hm, Nat.add_sub_cancel, Nat.cast_add] at this
      exact this
  rw [← hl] at h
  refine h.trans ?_
  have hm' : (2 * r * 2 ^ e : ℚ) = m + 1 := by exact_mod_cast hm
  rw [hm']
  have : (K.length : ℚ) / 2 ^ 512 + m * (K.length + (m + 1 : Nat)) / 2 ^ 512 ≤ (m + 1) * (K.length + (m + 1)) / 2 ^ 512 := by
    rw [← add_div]
    refine div_le_div_of_nonneg_right ?_ (by positivity)
    push_cast
    nlinarith [Nat.cast_nonneg (α := ℚ) m]
  linarith

/-! ### Two passwords -/

/-- HMAC is evaluated with the key `key` only, and the core at most `c` times. -/
def Spends (key : List Byte) : Nat → Algorithm β → Prop
  | _, .result _ => True
  | c, .eval (.hmac k _) next => k = key ∧ ∀ y, Spends key c (next y)
  | c, .eval (.core _) next => 1 ≤ c ∧ ∀ y, Spends key (c - 1) (next y)

theorem spends_chain (key : List Byte) (c : Nat) (x : List Byte) (bs ys : List (List Byte)) (k : List (List Byte) → Algorithm β)
    (hk : ∀ ys, Spends key c (k ys)) : Spends key (bs.length + c) (chain x bs ys k) := by
  induction bs generalizing x ys with
  | nil => simpa [chain] using hk ys
  | cons b bs ih =>
    refine ⟨by rw [List.length_cons]; omega, fun y => ?_⟩
    rw [List.length_cons, show bs.length + 1 + c - 1 = bs.length + c by omega]
    exact ih _ _

theorem spends_advance (key : List Byte) (r n : Nat) (X : List Byte) (k : List Byte → Algorithm β) (hk : ∀ X, Spends key 0 (k X)) :
    Spends key (n * (2 * r)) (advance r n X k) := by
  induction n generalizing X with
  | zero => simpa [advance] using hk X
  | succ n ih =>
    have := spends_chain key (n * (2 * r)) (block X (2 * r - 1)) ((List.range (2 * r)).map (block X)) [] (fun ys => advance r n (shuffle r ys) k)
      fun ys => ih _
    rw [List.length_map, List.length_range] at this
    rw [advance, Nat.succ_mul, Nat.add_comm]
    exact this

theorem spends_blocks (key salt : List Byte) (c i l : Nat) (k : List Byte → Algorithm β) (hk : ∀ B, Spends key c (k B)) :
    Spends key c (blocks key salt i l k) := by
  induction l generalizing i k with
  | zero => exact hk []
  | succ l ih => exact ⟨rfl, fun y => ih _ _ fun B => hk _⟩

theorem bind_random {γ : Type} (key key' : List Byte) (hne : key ≠ key') (good : γ → Bool) (C : ℚ) (c : Nat) (a : Algorithm β) (ha : Spends key c a)
    (k : β → Algorithm γ) (K : List (List Byte)) (t : Table) (hK : CoresIn t K) (ht : ∀ x, t (.hmac key' x) = none)
    (hk : ∀ b K' t', K'.length ≤ K.length + c → CoresIn t' K' → (∀ x, t' (.hmac key' x) = none) → (k b).random good t' ≤ C) :
    (a.bind k).random good t ≤ C := by
  induction a generalizing c K t with
  | result b => exact hk b K t (by omega) hK ht
  | eval q next ih =>
    cases q with
    | hmac k0 x =>
      obtain ⟨rfl, h2⟩ := ha
      rw [Algorithm.bind, Algorithm.random.eq_def]
      cases e : t (.hmac k0 x) with
      | some y => simpa only [e] using ih y c (h2 y) K t hK ht hk
      | none =>
        simp only [e]
        refine avg_le fun y => ih y c (h2 y) K _ (coresIn_hmac hK _ _ y) (fun z => ?_) hk
        rw [Function.update_of_ne (by simpa using fun h => absurd h.symm hne), ht]
    | core x =>
      obtain ⟨h1, h2⟩ := ha
      rw [Algorithm.bind, Algorithm.random.eq_def]
      cases e : t (.core x) with
      | some y => simpa only [e] using ih y (c - 1) (h2 y) K t hK ht fun b K' t' h => hk b K' t' (by omega)
      | none =>
        simp only [e]
        refine avg_le fun y => ih y (c - 1) (h2 y) (x :: K) _ (coresIn_update hK _ y) (fun z => ?_) fun b K' t' h => hk b K' t' (by simp at h; omega)
        rw [Function.update_of_ne (by simp), ht]

theorem random_bind_result {γ : Type} (good : γ → Bool) (a : Algorithm β) (f : β → γ) (t : Table) :
    (a.bind fun b => .result (f b)).random good t = a.random (fun b => good (f b)) t := by
  induction a generalizing t with
  | result b => rfl
  | eval q next ih =>
    rw [Algorithm.bind, Algorithm.random.eq_def, Algorithm.random.eq_def]
    cases e : t q with
    | some y => simpa only [e] using ih y t
    | none =>
      simp only [e]
      exact congrArg avg (funext fun y => ih y _)

/-- Two passwords give the same entry by chance. -/
theorem same_random (r e p : Nat) (hr : 1 ≤ r) (he : e ≤ 512) (key key' salt : List Byte) (hne : key ≠ key') (i : Nat)
    (hi : 4 * r * i + 4 * r < 2 ^ 32) :
    ((peek ⟨r, 2 ^ e, p⟩ key salt i).bind fun v => (peek ⟨r, 2 ^ e, p⟩ key' salt i).bind fun j => .result (decide (j = v))).random id (fun _ => none) ≤
      1 / 2 ^ e + 8 * (r * 2 ^ e) ^ 2 / 2 ^ 512 := by
  have hs : Spends key (2 ^ e * (2 * r)) (peek ⟨r, 2 ^ e, p⟩ key salt i) :=
    spends_blocks key salt _ _ _ _ fun B => spends_advance key r (2 ^ e) B (fun X => .result (integerify r X % 2 ^ e)) fun X => trivial
  refine bind_random key key' hne id _ (2 ^ e * (2 * r)) _ hs _ []
    (fun _ => none) (fun x h => absurd rfl h) (fun _ => rfl) fun v K t hlen hK ht => ?_
  rw [random_bind_result]
  refine (peek_random r e p hr he key' salt i v hi K t hK ht).trans (add_le_add_right (div_le_div_of_nonneg_right ?_ (by positivity)) _)
  have h : (K.length : ℚ) ≤ 2 * r * 2 ^ e := by
    have : K.length ≤ 2 * r * 2 ^ e := by rw [List.length_nil] at hlen; rw [Nat.mul_comm (2 * r)]; omega
    exact_mod_cast this
  have h0 : (0 : ℚ) ≤ 2 * r * 2 ^ e := by positivity
  nlinarith [mul_le_mul_of_nonneg_left h h0]

end Spec.ScryptPrice
