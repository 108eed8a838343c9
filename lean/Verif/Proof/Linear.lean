import Verif.Proof.SboxLinear

/-! Linear equations on AES: the S-box, one round, many rounds. -/

set_option linter.constructorNameAsVariable false

namespace Verif.Linear
open Verif Verif.Aes Spec.Aes Verif.WideTrail Verif.Trail Spec.Games

/-! ### The S-box -/

/-- A bit as a sign. -/
def sg (b : Bool) : ℚ := if b then -1 else 1

theorem sg_xor (a b : Bool) : sg (a ^^ b) = sg a * sg b := by cases a <;> cases b <;> simp [sg]
theorem sg_mul_self (a : Bool) : sg a * sg a = 1 := by cases a <;> simp [sg]
theorem abs_sg (a : Bool) : |sg a| = 1 := by cases a <;> simp [sg]
theorem sg_false : sg false = 1 := rfl

theorem avg_mul {α : Type} [Fintype α] (c : ℚ) (f : α → ℚ) : (avg fun a => c * f a) = c * avg f := by
  rw [avg, avg, ← Finset.mul_sum, mul_div_assoc]

theorem sum_byte (f : Spec.Byte → ℚ) : ∑ x, f x = ∑ i ∈ Finset.range 256, f (BitVec.ofNat 8 i) := by
  rw [← Fin.sum_univ_eq_sum_range (fun i => f (BitVec.ofNat 8 i)) 256]
  refine (Fintype.sum_equiv ⟨BitVec.ofFin, BitVec.toFin, fun _ => rfl, fun _ => rfl⟩ _ _ fun i => ?_).symm
  congr 1
  exact BitVec.eq_of_toNat_eq (by simp)

/-- A linear function that is not zero is a fair coin. -/
theorem balanced {α : Type} [Fintype α] (e : α ≃ α) (f : α → Bool) (h : ∀ x, f (e x) = !f x) : (avg fun x => sg (f x)) = 0 := by
  have h1 := avg_equiv e fun x => sg (f x)
  have h2 : (avg fun x => sg (f (e x))) = -avg fun x => sg (f x) := by
    rw [← neg_one_mul, ← avg_mul]
    congr 1
    funext x
    rw [h]
    cases f x <;> simp [sg]
  linarith

def xorEquiv (a : Spec.Byte) : Spec.Byte ≃ Spec.Byte where
  toFun x := x ^^^ a
  invFun x := x ^^^ a
  left_inv x := by beta_reduce; rw [BitVec.xor_assoc, BitVec.xor_self, BitVec.xor_zero]
  right_inv x := by beta_reduce; rw [BitVec.xor_assoc, BitVec.xor_self, BitVec.xor_zero]

def ginvEquiv : Spec.Byte ≃ Spec.Byte := ⟨ginv, ginv, ginv_ginv, ginv_ginv⟩

def mulEquiv (u : Spec.Byte) (h : u ≠ 0) : Spec.Byte ≃ Spec.Byte where
  toFun x := gmul u x
  invFun x := gmul (ginv u) x
  left_inv x := by beta_reduce; rw [← gmul_assoc, gmul_comm (ginv u), ginv_spec u h, gmul_one_left]
  right_inv x := by beta_reduce; rw [← gmul_assoc, ginv_spec u h, gmul_one_left]

theorem pair_balanced {u : Spec.Byte} (h : u ≠ 0) : (avg fun x => sg (pair u x)) = 0 :=
  balanced (xorEquiv (ginv u)) _ fun x => by
    show pair u (x ^^^ ginv u) = _
    rw [pair_right, pair_inv h, Bool.xor_true]

theorem sum_count (n : Nat) (p : Nat → Bool) : (∑ i ∈ Finset.range n, if p i = true then (1 : ℚ) else 0) = (List.range n).countP p := by
  induction n with
  | zero => rfl
  | succ n ih =>
    rw [Finset.sum_range_succ, ih, List.range_succ, List.countP_append, List.countP_singleton]
    push_cast
    rfl

theorem kloosterman {c : Spec.Byte} (h : c ≠ 0) : |avg fun y => sg (pair 1 y ^^ pair c (ginv y))| ≤ 1 / 8 := by
  have e : (∑ y, sg (pair 1 y ^^ pair c (ginv y))) = 2 * agree c.toNat - 256 := by
    have h1 (y : Nat) (hy : y < 256) : sg (pair 1 (BitVec.ofNat 8 y) ^^ pair c (ginv (BitVec.ofNat 8 y))) =
        2 * (if ((y % 2 == 1) == par (c.toNat &&& (invMask (BitVec.ofNat 8 y)).toNat)) = true then 1 else 0) - 1 := by
      have p1 : pair 1 (BitVec.ofNat 8 y) = (y % 2 == 1) := by
        rw [pair, gmul_one_left]
        rw [BitVec.getLsbD_ofNat, Nat.testBit_zero]
        simp [beq_eq_decide]
      have p2 : pair c (ginv (BitVec.ofNat 8 y)) = par (c.toNat &&& (invMask (BitVec.ofNat 8 y)).toNat) := by
        rw [pair_ginv, ← BitVec.toNat_and]
        have := par_eq ⟨(c &&& invMask (BitVec.ofNat 8 y)).toNat, BitVec.isLt _⟩
        simp only [BitVec.ofNat_toNat, BitVec.setWidth_eq] at this
        exact this.symm
      rw [p1, p2]
      cases (y % 2 == 1) <;> cases par (c.toNat &&& (invMask (BitVec.ofNat 8 y)).toNat) <;> simp [sg] <;> norm_num
    rw [sum_byte, Finset.sum_congr rfl fun y hy => h1 y (Finset.mem_range.1 hy), Finset.sum_sub_distrib, ← Finset.mul_sum, sum_count,
      agree, masks_eq, List.countP_map, Finset.sum_const, Finset.card_range, nsmul_eq_mul, mul_one]
    rfl
  rw [avg, e, card_byte]
  obtain ⟨h1, h2⟩ := agree_all ⟨c.toNat, c.isLt⟩ (fun e => h (BitVec.eq_of_toNat_eq (congrArg Fin.val e)))
  have h1 : (112 : ℚ) ≤ agree c.toNat := by exact_mod_cast h1
  have h2 : (agree c.toNat : ℚ) ≤ 144 := by exact_mod_cast h2
  rw [abs_le]
  constructor <;> norm_num <;> linarith

theorem ginv_mul (u y : Spec.Byte) (h : u ≠ 0) : ginv (gmul (ginv u) y) = gmul u (ginv y) := by
  by_cases hy : y = 0
  · rw [hy, gmul_zero_right, ginv_zero, gmul_zero_right]
  · refine ginv_of_mul ?_
    rw [gmul_assoc, gmul_comm u (ginv y), ← gmul_assoc y, ginv_spec y hy, gmul_one_left, gmul_comm, ginv_spec u h]

theorem inverse_corr (u v : Spec.Byte) : |avg fun x => sg (pair u x ^^ pair v (ginv x))| ≤
    if u = 0 then if v = 0 then 1 else 0 else if v = 0 then 0 else 1 / 8 := by
  split
  · next hu =>
    subst hu
    simp only [zero_pair, Bool.false_xor]
    split
    · next hv =>
      subst hv
      simp only [zero_pair, sg_false, avg_const]
      norm_num
    · next hv =>
      have := avg_equiv ginvEquiv fun x => sg (pair v x)
      rw [pair_balanced hv] at this
      rw [show (avg fun x => sg (pair v (ginv x))) = 0 from this, abs_zero]
  · next hu =>
    split
    · next hv =>
      subst hv
      simp only [zero_pair, Bool.xor_false]
      rw [pair_balanced hu, abs_zero]
    · next hv =>
      have hg := ginv_ne_zero hu
      rw [← avg_equiv (mulEquiv (ginv u) hg)]
      have : (fun y => sg (pair u ((mulEquiv (ginv u) hg) y) ^^ pair v (ginv ((mulEquiv (ginv u) hg) y)))) =
          fun y => sg (pair 1 y ^^ pair (gmul v u) (ginv y)) := by
        funext y
        show sg (pair u (gmul (ginv u) y) ^^ pair v (ginv (gmul (ginv u) y))) = _
        rw [ginv_mul u y hu, pair_mul, pair_mul, ginv_spec u hu]
      rw [this]
      exact kloosterman fun e => hu (gmul_eq_zero hv e)

/-- The linear part of the S-box, on the other side of the pairing. -/
theorem affine_pair (v : Spec.Byte) : ∃ v', (v' = 0 ↔ v = 0) ∧ ∀ x, pair v (affine x) = (pair v' x ^^ pair v 0x63) := by
  have hl : LinearByte fun x => pair v (affine x ^^^ 0x63) := by
    intro x y
    have : affine (x ^^^ y) ^^^ 0x63 = (affine x ^^^ 0x63) ^^^ (affine y ^^^ 0x63) := by
      rw [bxor4, BitVec.xor_self, BitVec.xor_zero, affine_xor]
      rfl
    beta_reduce
    rw [this, pair_right]
  obtain ⟨v', hv⟩ := exists_pair _ hl
  have h2 (x) : pair v (affine x) = (pair v' x ^^ pair v 0x63) := by
    rw [← hv, ← pair_right, BitVec.xor_assoc, BitVec.xor_self, BitVec.xor_zero]
  refine ⟨v', ⟨fun e => ?_, fun e => ?_⟩, h2⟩
  · by_contra hn
    have ht (x y) : pair v (sbox x) = pair v (sbox y) := by rw [sbox, sbox, h2, h2, e, zero_pair, zero_pair]
    have := ht (invSbox 0) (invSbox (ginv v))
    rw [sbox_invSbox, sbox_invSbox, pair_zero, pair_inv hn] at this
    exact absurd this (by decide)
  · by_contra hn
    have := pair_inv hn
    have h3 := congrFun hv (ginv v')
    rw [e, zero_pair, this] at h3
    exact absurd h3 (by decide)

/-- How well a linear function of the S-box's output can be told from one of its input. -/
def corr (u v : Spec.Byte) : ℚ := avg fun x => sg (pair u x ^^ pair v (sbox x))

theorem corr_le (u v : Spec.Byte) : |corr u v| ≤ if u = 0 then if v = 0 then 1 else 0 else if v = 0 then 0 else 1 / 8 := by
  obtain ⟨v', hv, h⟩ := affine_pair v
  have e : corr u v = sg (pair v 0x63) * avg fun x => sg (pair u x ^^ pair v' (ginv x)) := by
    rw [corr, ← avg_mul]
    congr 1
    funext x
    rw [sbox, h, ← Bool.xor_assoc, sg_xor, mul_comm]
  rw [e, abs_mul, abs_sg, one_mul]
  have := inverse_corr u v'
  simpa only [hv] using this

/-! ### States -/

/-- The sign of the pairing of two states. -/
def ssg (u s : State) : ℚ := ∏ r, ∏ c, sg (pair (u r c) (s r c))

theorem ssg_xor (u s t : State) : ssg u (xorState s t) = ssg u s * ssg u t := by
  simp only [ssg, xorState, pair_right, sg_xor, Finset.prod_mul_distrib]

theorem ssg_self (u s : State) : ssg u s * ssg u s = 1 := by
  simp only [ssg, ← Finset.prod_mul_distrib, sg_mul_self, Finset.prod_const_one]

theorem abs_ssg (u s : State) : |ssg u s| = 1 := by
  simp only [ssg, Finset.abs_prod, abs_sg, Finset.prod_const_one]

theorem linear_zero {f : State → Bool} (hf : Linear f) : f (fun _ _ => 0) = false := by
  have := hf (fun _ _ => 0) (fun _ _ => 0)
  rw [show xorState (fun _ _ => 0) (fun _ _ => 0) = (fun _ _ => 0 : State) from
    funext fun _ => funext fun _ => BitVec.xor_self] at this
  simpa using this

/-- Part of a state. -/
def part (T : Finset (Fin 4 × Fin 4)) (s : State) : State := fun r c => if (r, c) ∈ T then s r c else 0

/-- Every linear function of a state is a pairing. -/
theorem exists_ssg (f : State → Bool) (hf : Linear f) : ∃ u, ∀ s, sg (f s) = ssg u s := by
  have hl (r c : Fin 4) : LinearByte fun x => f (part {(r, c)} fun _ _ => x) := by
    intro x y
    beta_reduce
    rw [← hf]
    congr 1
    funext r' c'
    simp only [part, xorState]
    split <;> rfl
  choose u hu using fun r c => exists_pair _ (hl r c)
  refine ⟨u, fun s => ?_⟩
  have h (T : Finset (Fin 4 × Fin 4)) : sg (f (part T s)) = ∏ a ∈ T, sg (pair (u a.1 a.2) (s a.1 a.2)) := by
    induction T using Finset.induction_on with
    | empty =>
      rw [Finset.prod_empty, show part ∅ s = fun _ _ => 0 from rfl, linear_zero hf]
      rfl
    | insert a T ha ih =>
      have e : part (insert a T) s = xorState (part {(a.1, a.2)} fun _ _ => s a.1 a.2) (part T s) := by
        funext r c
        simp only [part, xorState, Finset.mem_insert, Finset.mem_singleton]
        by_cases hra : (r, c) = a
        · rw [if_pos (.inl hra), if_pos hra, if_neg (hra ▸ ha), ← hra]
          exact BitVec.xor_zero.symm
        · rw [if_neg (fun h : (r, c) = (a.1, a.2) => hra h)]
          simp only [hra, false_or]
          exact BitVec.zero_xor.symm
      rw [e, hf, sg_xor, ih, Finset.prod_insert ha, ← hu]
  have := h Finset.univ
  rw [Fintype.prod_prod_type] at this
  rw [ssg, ← this]
  congr 2
  funext r c
  simp [part]

theorem avg_pi {ι α : Type} [Fintype ι] [DecidableEq ι] [Fintype α] (F : ι → α → ℚ) :
    (avg fun s : ι → α => ∏ i, F i (s i)) = ∏ i, avg (F i) := by
  simp only [avg]
  rw [Finset.prod_div_distrib, Finset.prod_univ_sum, Fintype.piFinset_univ, Fintype.card_fun, Finset.prod_const, Finset.card_univ]
  push_cast
  rfl

/-- The S-boxes of a round. -/
theorem layer (u w : State) : (avg fun x : State => ssg u x * ssg w (subBytes x)) = ∏ r, ∏ c, corr (u r c) (w r c) := by
  have : (fun x : State => ssg u x * ssg w (subBytes x)) = fun x => ∏ r, ∏ c, sg (pair (u r c) (x r c) ^^ pair (w r c) (sbox (x r c))) := by
    funext x
    simp only [ssg, sg_xor, Finset.prod_mul_distrib, subBytes]
  rw [this, avg_pi fun r (y : Fin 4 → Spec.Byte) => ∏ c, sg (pair (u r c) (y c) ^^ pair (w r c) (sbox (y c)))]
  refine Finset.prod_congr rfl fun r _ => ?_
  rw [avg_pi fun c (y : Spec.Byte) => sg (pair (u r c) y ^^ pair (w r c) (sbox y))]
  rfl

theorem ssg_shift (w s : State) : ssg w (shiftRows s) = ssg (invShiftRows w) s := by
  rw [ssg, ssg]
  refine Finset.prod_congr rfl fun r _ => ?_
  rw [← Equiv.prod_comp (Equiv.addRight r) fun c => sg (pair (invShiftRows w r c) (s r c))]
  refine Finset.prod_congr rfl fun c _ => ?_
  simp only [shiftRows, invShiftRows, Equiv.coe_addRight, add_sub_cancel_right]

/-- The transpose of `mixColumns`. -/
def mixT (v : State) : State := fun r c => gmul 2 (v r c) ^^^ gmul 3 (v (r + 3) c) ^^^ v (r + 2) c ^^^ v (r + 1) c

theorem ssg_mix (v s : State) : ssg v (mixColumns s) = ssg (mixT v) s := by
  rw [ssg, ssg, Finset.prod_comm, Finset.prod_comm (f := fun r c => sg (pair (mixT v r c) (s r c)))]
  refine Finset.prod_congr rfl fun c _ => ?_
  simp only [Fin.prod_univ_four, mixColumns, mixT, pair_right, pair_left, sg_xor, pair_mul, gmul_comm _ 2, gmul_comm _ 3, Fin.reduceAdd,
    zero_add]
  ring

/-! ### Patterns -/

/-- The bytes that are not zero. -/
def nz (u : State) : Pattern := diff u fun _ _ => 0

theorem nz_iff (u : State) (r c : Fin 4) : nz u r c = true ↔ u r c ≠ 0 := by simp [nz, diff]

theorem nz_mix (v : State) : Mixes (nz (mixT v)) (nz v) := by
  intro c h
  have hx : ∃ l, v (-l) c ≠ 0 := by
    by_contra hn
    push Not at hn
    have hv (l : Fin 4) : v l c = 0 := by
      have := hn (-l)
      rwa [neg_neg] at this
    rcases h with ⟨r, hr⟩ | ⟨r, hr⟩
    · rw [nz_iff] at hr
      refine hr ?_
      simp only [mixT, hv, gmul_zero_right]
      rfl
    · exact (nz_iff v r c).1 hr (hv r)
  have hb := branch_col (fun l => v (-l) c) hx
  have e1 : inCol (nz v) c = (Finset.univ.filter fun l => v (-l) c ≠ 0).card := by
    rw [inCol]
    refine Finset.card_equiv (Equiv.neg (Fin 4)) fun r => ?_
    simp [nz_iff]
  have e2 : inCol (nz (mixT v)) c = (Finset.univ.filter fun l => mixCol (fun l => v (-l) c) l ≠ 0).card := by
    rw [inCol]
    refine Finset.card_equiv (Equiv.neg (Fin 4)) fun r => ?_
    have : mixCol (fun l => v (-l) c) (-r) = mixT v r c := by
      simp only [mixCol, mixT, neg_add, neg_neg]
      rfl
    simp [nz_iff, this]
  rw [e1, e2, Nat.add_comm]
  exact hb

theorem nz_unshift (w : State) : shift.pat (nz (invShiftRows w)) = nz w := by
  funext r c
  simp [nz, diff, Shift.pat, shift, invShiftRows]

theorem weight_nz (u : State) : weight (nz u) = active u := by
  rw [weight_eq, active]
  refine Finset.sum_congr rfl fun r _ => Finset.sum_congr rfl fun c _ => ?_
  by_cases h : u r c = 0
  · rw [if_pos h, if_neg fun e => (nz_iff u r c).1 e h]
  · rw [if_neg h, if_pos ((nz_iff u r c).2 h)]

section
variable (P : Nat → Pattern) (n : Nat) (hm : ∀ i, i + 1 < n → Mixes (shift.pat (P i)) (P (i + 1)))
include hm

theorem alive_iff (i : Nat) (hi : i + 1 < n) : (∃ r c, P i r c = true) ↔ ∃ r c, P (i + 1) r c = true := by
  have hc := (hm i hi).cols
  have hp (Q : Pattern) : 0 < cols Q ↔ ∃ c r, Q r c = true := by
    rw [cols, Finset.card_pos]
    exact ⟨fun ⟨c, h⟩ => ⟨c, by simpa using h⟩, fun ⟨c, h⟩ => ⟨c, by simpa using h⟩⟩
  constructor
  · intro h
    rw [exists_comm, ← hp, ← hc, hp]
    exact pat_nonzero shift h
  · intro h
    rw [exists_comm, ← hp, ← hc, hp] at h
    obtain ⟨c, r, h⟩ := h
    exact ⟨r, _, h⟩

theorem alive_all (i : Nat) (hi : i < n) : (∃ r c, P 0 r c = true) ↔ ∃ r c, P i r c = true := by
  induction i with
  | zero => exact Iff.rfl
  | succ i ih => exact (ih (by omega)).trans (alive_iff P n hm i hi)

theorem weight_all (h0 : ∃ r c, P 0 r c = true) : 25 * (n / 4) + 5 * (n % 4 / 2) + n % 2 ≤ ∑ i ∈ Finset.range n, weight (P i) := by
  have alive (i : Nat) (hi : i < n) := (alive_all P n hm i hi).1 h0
  have two (i : Nat) (hi : i + 1 < n) : 5 ≤ weight (P i) + weight (P (i + 1)) := two_rounds shift (alive i (by omega)) (hm i hi)
  have four (i : Nat) (hi : i + 3 < n) : 25 ≤ weight (P i) + weight (P (i + 1)) + weight (P (i + 2)) + weight (P (i + 3)) :=
    four_rounds shift (alive (i + 1) (by omega)) (hm i (by omega)) (hm (i + 1) (by omega)) (hm (i + 2) (by omega))
  have one (i : Nat) (hi : i < n) : 1 ≤ weight (P i) := by
    obtain ⟨r, c, hr⟩ := alive i hi
    have h1 : 1 ≤ inCol (P i) c := Finset.card_pos.2 ⟨r, by simpa using hr⟩
    exact h1.trans (Finset.single_le_sum (f := inCol (P i)) (fun _ _ => Nat.zero_le _) (Finset.mem_univ c))
  have hs (m : Nat) (hm : 4 * m ≤ n) : 25 * m ≤ ∑ i ∈ Finset.range (4 * m), weight (P i) := by
    induction m with
    | zero => simp
    | succ m ih =>
      have h4 := four (4 * m) (by omega)
      have := ih (by omega)
      rw [show 4 * (m + 1) = 4 * m + 1 + 1 + 1 + 1 by omega]
      simp only [Finset.sum_range_succ]
      simp only [Nat.add_assoc] at h4 ⊢
      omega
  have h4 := hs (n / 4) (by omega)
  have hn : n = 4 * (n / 4) ∨ n = 4 * (n / 4) + 1 ∨ n = 4 * (n / 4) + 1 + 1 ∨ n = 4 * (n / 4) + 1 + 1 + 1 := by omega
  rcases hn with e | e | e | e <;> rw [show Finset.range n = Finset.range _ from congrArg _ e]
  · omega
  · have := one (4 * (n / 4)) (by omega)
    rw [Finset.sum_range_succ]
    omega
  · have := two (4 * (n / 4)) (by omega)
    rw [Finset.sum_range_succ, Finset.sum_range_succ]
    omega
  · have := two (4 * (n / 4)) (by omega)
    have := one (4 * (n / 4) + 2) (by omega)
    rw [Finset.sum_range_succ, Finset.sum_range_succ, Finset.sum_range_succ, show 4 * (n / 4) + 1 + 1 = 4 * (n / 4) + 2 from rfl]
    omega
end

/-! ### Many rounds -/

/-- How well a linear function of what a round makes can be told from one of what goes into it. -/
def rc (u v : State) : ℚ := ∏ r, ∏ c, corr (u r c) (invShiftRows (mixT v) r c)

theorem rc_eq (u v : State) : (avg fun x : State => ssg u x * ssg v (R x)) = rc u v := by
  rw [rc, ← layer]
  simp only [R, ssg_mix, ssg_shift]

theorem avg_right {α : Type} [Fintype α] (f g : α → ℚ) (c : ℚ) : (avg fun x => f x * (g x * c)) = (avg fun x => f x * g x) * c := by
  rw [mul_comm, ← avg_mul]
  exact congrArg avg (funext fun x => by ring)

/-- What is added by the first round key. -/
def stateEquiv (p : State) : State ≃ State where
  toFun x := xorState p x
  invFun x := xorState p x
  left_inv x := by
    funext r c
    show p r c ^^^ (p r c ^^^ x r c) = x r c
    rw [← BitVec.xor_assoc, BitVec.xor_self, BitVec.zero_xor]
  right_inv x := by
    funext r c
    show p r c ^^^ (p r c ^^^ x r c) = x r c
    rw [← BitVec.xor_assoc, BitVec.xor_self, BitVec.zero_xor]

theorem first_key (u p : State) (G : State → ℚ) :
    (avg fun a : State => ssg u a * G (xorState p a)) = ssg u p * avg fun x => ssg u x * G x := by
  rw [← avg_equiv (stateEquiv p) fun x => ssg u x * G x, ← avg_mul]
  congr 1
  funext a
  show ssg u a * G (xorState p a) = ssg u p * (ssg u (xorState p a) * G (xorState p a))
  rw [ssg_xor, ← mul_assoc, ← mul_assoc, ssg_self, one_mul]

theorem before_cons {n : Nat} (a : State) (k : Fin (n + 1) → State) (p : State) :
    before (fun j => (Fin.cons a k : Fin (n + 2) → State) (Fin.ofNat (n + 2) j)) p (n + 1) =
      before (fun j => k (Fin.ofNat (n + 1) j)) (R (xorState p a)) n := by
  rw [before_shift]
  exact before_congr _ (fun j hj => seq_cons a k j (by omega)) _

/-- The mean over the round keys, round by round. -/
theorem mean (n : Nat) : ∀ (u : Fin (n + 1) → State) (p : State) (G : State → ℚ),
    (avg fun k : Fin (n + 1) → State => (∏ i, ssg (u i) (k i)) * G (before (fun j => k (Fin.ofNat (n + 1) j)) p n)) =
      ssg (u 0) p * (∏ i : Fin n, rc (u i.castSucc) (u i.succ)) * avg fun x => ssg (u (Fin.last n)) x * G x := by
  induction n with
  | zero =>
    intro u p G
    rw [Fin.prod_univ_zero, mul_one]
    refine Eq.trans ?_ (first_key (u 0) p G)
    rw [← avg_equiv (Equiv.funUnique (Fin 1) State)]
    congr 1
    funext k
    rw [Fin.prod_univ_one]
    rfl
  | succ n ih =>
    intro u p G
    rw [← avg_equiv (Fin.consEquiv fun _ => State), avg_prod]
    have h (a : State) : (avg fun k : Fin (n + 1) → State => (∏ i, ssg (u i) ((Fin.consEquiv fun _ => State) (a, k) i)) *
        G (before (fun j => (Fin.consEquiv fun _ => State) (a, k) (Fin.ofNat (n + 2) j)) p (n + 1))) =
        ssg (u 0) a * (ssg (u 1) (R (xorState p a)) * ((∏ i : Fin n, rc (u i.castSucc.succ) (u i.succ.succ)) *
          avg fun x => ssg (u (Fin.last (n + 1))) x * G x)) := by
      rw [← mul_assoc (ssg (u 1) _)]
      refine Eq.trans ?_ (congrArg (ssg (u 0) a * ·) (ih (fun i => u i.succ) (R (xorState p a)) G))
      rw [← avg_mul]
      congr 1
      funext k
      rw [Fin.prod_univ_succ, mul_assoc]
      exact congrArg (fun s => ssg (u 0) a * ((∏ i, ssg (u i.succ) (k i)) * G s)) (before_cons a k p)
    rw [show (fun a : State => _) = _ from funext h]
    rw [first_key (u 0) p fun y => ssg (u 1) (R y) * ((∏ i : Fin n, rc (u i.castSucc.succ) (u i.succ.succ)) *
          avg fun x => ssg (u (Fin.last (n + 1))) x * G x)]
    rw [avg_right, rc_eq, Fin.prod_univ_succ, mul_assoc, mul_assoc]
    rfl

/-- A product over the S-boxes is small, and zero unless the same bytes are not zero on both sides. -/
theorem layer_le (u w : State) : |∏ r, ∏ c, corr (u r c) (w r c)| ≤ (1 / 8) ^ active u := by
  rw [active, ← Finset.prod_pow_eq_pow_sum, Finset.abs_prod]
  refine Finset.prod_le_prod (fun _ _ => abs_nonneg _) fun r _ => ?_
  rw [← Finset.prod_pow_eq_pow_sum, Finset.abs_prod]
  refine Finset.prod_le_prod (fun _ _ => abs_nonneg _) fun c _ => ?_
  refine (corr_le _ _).trans ?_
  split
  · split <;> norm_num
  · split <;> norm_num

theorem layer_nz {u w : State} (h : (∏ r, ∏ c, corr (u r c) (w r c)) ≠ 0) : nz u = nz w := by
  funext r c
  have h1 := Finset.prod_ne_zero_iff.1 (Finset.prod_ne_zero_iff.1 h r (Finset.mem_univ r)) c (Finset.mem_univ c)
  have h2 := corr_le (u r c) (w r c)
  refine Bool.eq_iff_iff.2 ?_
  rw [nz_iff, nz_iff]
  by_contra hn
  refine h1 (abs_eq_zero.1 (le_antisymm (h2.trans (le_of_eq ?_)) (abs_nonneg _)))
  by_cases hu : u r c = 0 <;> by_cases hw : w r c = 0 <;> simp_all

theorem linear_balanced {f : State → Bool} (hf : Linear f) (h : ∃ s, f s = true) : (avg fun s => sg (f s)) = 0 := by
  obtain ⟨t, ht⟩ := h
  refine balanced (stateEquiv t) f fun x => ?_
  show f (xorState t x) = _
  rw [hf, ht, Bool.true_xor]

theorem ssg_zero (s : State) : ssg (fun _ _ => 0) s = 1 := by
  simp only [ssg, zero_pair, sg_false, Finset.prod_const_one]

theorem sg_injective {a b : Bool} (h : sg a = sg b) : a = b := by
  cases a <;> cases b <;> simp_all [sg] <;> norm_num at h

theorem nz_zero {u : State} (h : ¬ ∃ r c, nz u r c = true) : u = fun _ _ => 0 := by
  funext r c
  by_contra hn
  exact h ⟨r, c, (nz_iff u r c).2 hn⟩

theorem keyBits_sg {n : Nat} (f : Fin n → State → Bool) (u : Fin n → State) (hu : ∀ i s, sg (f i s) = ssg (u i) s) (k : Fin n → State) :
    sg (keyBits f k) = ∏ i, ssg (u i) (k i) := by
  rw [keyBits]
  induction n with
  | zero => rfl
  | succ n ih =>
    rw [List.ofFn_succ, List.foldr_cons, sg_xor, Fin.prod_univ_succ, hu, ih (fun i => f i.succ) (fun i => u i.succ) (fun i => hu i.succ)]

/-- The bias of an equation. -/
theorem bias_le (n : Nat) (out : State → Bool) (f : Fin (n + 1) → State → Bool) (g : State → Bool) (p : State)
    (ho : Linear out) (hf : ∀ i, Linear (f i)) (hg : Linear g)
    (hn : ¬ ((∀ s, out s = false) ∧ (∀ i s, f i s = false) ∧ ∀ s, g s = false)) :
    |avg fun k : Fin (n + 1) → State => avg fun last : State =>
      sg (out (ciphertext n (fun j => k (Fin.ofNat (n + 1) j)) last p) ^^ keyBits f k ^^ g last)| ≤
      (1 / 8) ^ (25 * ((n + 1) / 4) + 5 * ((n + 1) % 4 / 2) + (n + 1) % 2) := by
  choose u hu using fun i => exists_ssg (f i) (hf i)
  obtain ⟨w, hw⟩ := exists_ssg out ho
  have hlin : Linear fun s => (out s ^^ g s) := by
    intro s t
    beta_reduce
    rw [ho, hg]
    cases out s <;> cases out t <;> cases g s <;> cases g t <;> rfl
  have e : (avg fun k : Fin (n + 1) → State => avg fun last : State =>
      sg (out (ciphertext n (fun j => k (Fin.ofNat (n + 1) j)) last p) ^^ keyBits f k ^^ g last)) =
      ssg (u 0) p * (∏ i : Fin n, rc (u i.castSucc) (u i.succ)) *
        (∏ r, ∏ c, corr (u (Fin.last n) r c) (invShiftRows w r c)) * avg fun s => sg (out s ^^ g s) := by
    have h1 (k : Fin (n + 1) → State) : (avg fun last : State =>
        sg (out (ciphertext n (fun j => k (Fin.ofNat (n + 1) j)) last p) ^^ keyBits f k ^^ g last)) =
        (∏ i, ssg (u i) (k i)) * (ssg w (shiftRows (subBytes (before (fun j => k (Fin.ofNat (n + 1) j)) p n))) *
          avg fun s => sg (out s ^^ g s)) := by
      rw [← avg_mul, ← avg_mul]
      congr 1
      funext last
      rw [ciphertext, ho, sg_xor, sg_xor, sg_xor, sg_xor, hw, keyBits_sg f u hu]
      ring
    rw [show (fun k : Fin (n + 1) → State => _) = _ from funext h1,
      mean n u p fun x => ssg w (shiftRows (subBytes x)) * avg fun s => sg (out s ^^ g s), avg_right, mul_assoc _ (∏ r, _), ← layer, ← mul_assoc, ← mul_assoc]
    simp only [ssg_shift]
  rw [e]
  by_cases h0 : ssg (u 0) p * (∏ i : Fin n, rc (u i.castSucc) (u i.succ)) *
        (∏ r, ∏ c, corr (u (Fin.last n) r c) (invShiftRows w r c)) * (avg fun s => sg (out s ^^ g s)) = 0
  · rw [h0, abs_zero]
    positivity
  · obtain ⟨h0, h3⟩ := mul_ne_zero_iff.1 h0
    obtain ⟨h0, h2⟩ := mul_ne_zero_iff.1 h0
    obtain ⟨-, h1⟩ := mul_ne_zero_iff.1 h0
    have hog (s) : out s = g s := by
      by_contra hne
      refine h3 (linear_balanced hlin ⟨s, ?_⟩)
      cases ha : out s <;> cases hb : g s <;> simp_all
    have hchain (i : Fin n) : Mixes (shift.pat (nz (u i.castSucc))) (nz (u i.succ)) := by
      rw [layer_nz (Finset.prod_ne_zero_iff.1 h1 i (Finset.mem_univ i)), nz_unshift]
      exact nz_mix _
    set P : Nat → Pattern := fun i => nz (u (Fin.ofNat (n + 1) i)) with hP
    have hPv (i : Fin (n + 1)) : P i = nz (u i) := by
      rw [hP]
      exact congrArg (fun i => nz (u i)) (Fin.ext (Nat.mod_eq_of_lt i.isLt))
    have hm (i : Nat) (hi : i + 1 < n + 1) : Mixes (shift.pat (P i)) (P (i + 1)) := by
      have := hchain ⟨i, by omega⟩
      rw [← hPv, ← hPv] at this
      exact this
    have halive : ∃ r c, P 0 r c = true := by
      by_contra hz
      have hall (i : Fin (n + 1)) : u i = fun _ _ => 0 := by
        refine nz_zero ?_
        rw [← hPv, ← alive_all P (n + 1) hm i i.isLt]
        exact hz
      have hw0 : w = fun _ _ => 0 := by
        refine nz_zero ?_
        rw [← nz_unshift, ← layer_nz h2, hall]
        rintro ⟨r, c, h⟩
        simp [Shift.pat, nz, diff] at h
      have hout (s) : out s = false := sg_injective (by rw [hw, hw0, ssg_zero]; rfl)
      exact hn ⟨hout, fun i s => sg_injective (by rw [hu, hall, ssg_zero]; rfl), fun s => by rw [← hog, hout]⟩
    have hs := weight_all P (n + 1) hm halive
    have hb : |avg fun s => sg (out s ^^ g s)| ≤ 1 := by
      refine (avg_abs _).trans (le_of_eq ?_)
      simp only [abs_sg, avg_const]
    rw [abs_mul, abs_mul, abs_mul, abs_ssg, one_mul]
    have hr : |∏ i : Fin n, rc (u i.castSucc) (u i.succ)| ≤ (1 / 8) ^ ∑ i : Fin n, active (u i.castSucc) := by
      rw [Finset.abs_prod, ← Finset.prod_pow_eq_pow_sum]
      exact Finset.prod_le_prod (fun _ _ => abs_nonneg _) fun i _ => layer_le _ _
    have hl := layer_le (u (Fin.last n)) (invShiftRows w)
    calc _ ≤ ((1 / 8 : ℚ) ^ ∑ i : Fin n, active (u i.castSucc)) * (1 / 8) ^ active (u (Fin.last n)) * 1 := by
          refine mul_le_mul (mul_le_mul hr hl (abs_nonneg _) (by positivity)) hb (abs_nonneg _) (by positivity)
      _ = (1 / 8) ^ ∑ i ∈ Finset.range (n + 1), weight (P i) := by
          rw [mul_one, ← pow_add, ← Fin.sum_univ_castSucc fun i => active (u i), ← Fin.sum_univ_eq_sum_range]
          congr 1
          exact Finset.sum_congr rfl fun i _ => by rw [hPv, weight_nz]
      _ ≤ _ := pow_le_pow_of_le_one (by norm_num) (by norm_num) hs

theorem chanceOf_le (n : Nat) (out : State → Bool) (f : Fin (n + 1) → State → Bool) (g : State → Bool) (value : Bool) (p : State)
    (ho : Linear out) (hf : ∀ i, Linear (f i)) (hg : Linear g)
    (hn : ¬ ((∀ s, out s = false) ∧ (∀ i s, f i s = false) ∧ ∀ s, g s = false)) :
    |chanceOf n out f g value p - 1 / 2| ≤ 1 / 2 ^ (3 * (25 * ((n + 1) / 4) + 5 * ((n + 1) % 4 / 2) + (n + 1) % 2) + 1) := by
  have h := bias_le n out f g p ho hf hg hn
  have e : chanceOf n out f g value p - 1 / 2 = sg value / 2 * avg fun k : Fin (n + 1) → State => avg fun last : State =>
      sg (out (ciphertext n (fun j => k (Fin.ofNat (n + 1) j)) last p) ^^ keyBits f k ^^ g last) := by
    rw [← avg_mul, chanceOf, ← avg_const (α := Fin (n + 1) → State) (1 / 2), avg_sub]
    congr 1
    funext k
    rw [← avg_mul, ← avg_const (α := State) (1 / 2), avg_sub]
    congr 1
    funext last
    generalize (out _ ^^ keyBits f k ^^ g last) = X
    cases X <;> cases value <;> simp [sg] <;> norm_num
  rw [e, abs_mul, abs_div, abs_sg]
  refine (mul_le_mul_of_nonneg_left h (by positivity)).trans (le_of_eq ?_)
  rw [abs_of_pos (by norm_num : (0 : ℚ) < 2), one_div_pow, pow_succ, pow_mul, show (2 : ℚ) ^ 3 = 8 by norm_num]
  field_simp

end Verif.Linear
