import Verif.Proof.WideTrail
import Verif.Spec.Trail
import Verif.Proof.Games
import Mathlib.Data.Fintype.Pi
import Mathlib.Data.Fintype.BigOperators
import Mathlib.Algebra.Order.BigOperators.Ring.Finset
import Mathlib.Algebra.BigOperators.Fin
import Mathlib.Tactic.Linarith

/-! Differential trails of AES: the S-box, one round, many rounds. -/

set_option linter.constructorNameAsVariable false

namespace Verif.Trail
open Verif Verif.Aes Spec.Aes Verif.WideTrail Spec.Games

theorem card_byte : Fintype.card Spec.Byte = 256 := by
  exact (Fintype.ofEquiv_card _).trans (Fintype.card_fin _)

/-! ### The S-box -/

theorem affine_bit : ∀ (b : Fin 256) (i : Fin 8), (affine (BitVec.ofNat 8 b.val)).getLsbD i = affineBit (BitVec.ofNat 8 b.val) i := by
  decide +kernel

theorem affine_xor (a b : Spec.Byte) : affine a ^^^ affine b = affine (a ^^^ b) ^^^ 0x63#8 := by
  have h (b : Spec.Byte) (i : Nat) (hi : i < 8) : (affine b).getLsbD i = affineBit b i :=
    forall_byte (P := fun b => (affine b).getLsbD i = affineBit b i) (fun t => affine_bit t ⟨i, hi⟩) b
  apply BitVec.eq_of_getLsbD_eq
  intro i hi
  rw [BitVec.getLsbD_xor, BitVec.getLsbD_xor, h _ _ hi, h _ _ hi, h _ _ hi]
  simp only [affineBit, BitVec.getLsbD_xor]
  generalize a.getLsbD i = a0
  generalize a.getLsbD ((i + 4) % 8) = a1
  generalize a.getLsbD ((i + 5) % 8) = a2
  generalize a.getLsbD ((i + 6) % 8) = a3
  generalize a.getLsbD ((i + 7) % 8) = a4
  generalize b.getLsbD i = b0
  generalize b.getLsbD ((i + 4) % 8) = b1
  generalize b.getLsbD ((i + 5) % 8) = b2
  generalize b.getLsbD ((i + 6) % 8) = b3
  generalize b.getLsbD ((i + 7) % 8) = b4
  generalize BitVec.getLsbD _ i = z
  revert a0 a1 a2 a3 a4 b0 b1 b2 b3 b4 z
  decide

theorem ginv_ne_zero {b : Spec.Byte} (h : b ≠ 0) : ginv b ≠ 0 := by
  intro e
  have := ginv_spec b h
  rw [e, gmul_zero_right] at this
  exact absurd this (by decide)

theorem ginv_ginv (b : Spec.Byte) : ginv (ginv b) = b := by
  by_cases h : b = 0
  · rw [h, ginv_zero, ginv_zero]
  · exact ginv_of_mul (by rw [gmul_comm]; exact ginv_spec b h)

theorem affine_injective {a b : Spec.Byte} (h : affine a = affine b) : a = b := by
  have : sbox (ginv a) = sbox (ginv b) := by rw [sbox, sbox, ginv_ginv, ginv_ginv, h]
  have := congrArg ginv (sbox_injective this)
  rwa [ginv_ginv, ginv_ginv] at this

/-- Two bytes with the same difference of the S-box have the same difference of the inverses. -/
theorem ginv_difference {x y x' y' : Spec.Byte} (h : sbox x ^^^ sbox y = sbox x' ^^^ sbox y') :
    ginv x ^^^ ginv y = ginv x' ^^^ ginv y' := by
  rw [sbox, sbox, sbox, sbox, affine_xor, affine_xor, BitVec.xor_left_inj] at h
  exact affine_injective h

/-- `x (x + a)` is determined by the difference of the inverses of `x` and `x + a`, neither of which is zero. -/
theorem product {x a : Spec.Byte} (hx : x ≠ 0) (hxa : x ^^^ a ≠ 0) : gmul (gmul x (x ^^^ a)) (ginv x ^^^ ginv (x ^^^ a)) = a := by
  rw [gmul_add_right, gmul_assoc x, gmul_comm (x ^^^ a) (ginv x), ← gmul_assoc x, ginv_spec x hx, gmul_one_left, gmul_assoc x,
    ginv_spec _ hxa, gmul_one_right]
  rw [BitVec.xor_comm x a, BitVec.xor_assoc, BitVec.xor_self, BitVec.xor_zero]

theorem same_product {x z a : Spec.Byte} (h : gmul x (x ^^^ a) = gmul z (z ^^^ a)) : z = x ∨ z = x ^^^ a := by
  have e : gmul (x ^^^ z) (x ^^^ z ^^^ a) = 0 := by
    have h1 : gmul (x ^^^ z) (x ^^^ z ^^^ a) = (gmul x (x ^^^ a) ^^^ gmul z (z ^^^ a)) ^^^ (gmul x z ^^^ gmul z x) := by
      simp only [gmul_add_left, gmul_add_right]
      simp only [bxor_comm, bxor_left_comm, BitVec.xor_assoc]
    rw [h1, h, gmul_comm z x]
    simp
  by_cases hz : x ^^^ z = 0
  · exact .inl (xor_eq_zero.mp hz).symm
  · have := gmul_eq_zero hz e
    right
    have : x ^^^ (x ^^^ z ^^^ a) ^^^ a = x ^^^ 0 ^^^ a := by rw [this]
    rw [show x ^^^ (x ^^^ z ^^^ a) ^^^ a = z by
      rw [BitVec.xor_assoc x z a, ← BitVec.xor_assoc x x, BitVec.xor_self, BitVec.zero_xor, BitVec.xor_assoc, BitVec.xor_self, BitVec.xor_zero]] at this
    rw [this, show x ^^^ (0 : Spec.Byte) = x from BitVec.xor_zero]

open Classical in
/-- For every difference `a` of two bytes that is not zero, every difference of their images under the S-box comes from at most four
bytes. -/
theorem sbox_differences (a b : Spec.Byte) (ha : a ≠ 0) :
    (Finset.univ.filter fun x : Spec.Byte => sbox x ^^^ sbox (x ^^^ a) = b).card ≤ 4 := by
  by_cases hx : ∃ x, x ≠ 0 ∧ x ^^^ a ≠ 0 ∧ sbox x ^^^ sbox (x ^^^ a) = b
  · obtain ⟨x, h0, h1, h2⟩ := hx
    refine (Finset.card_le_card (t := {0, a, x, x ^^^ a}) ?_).trans ?_
    · intro z hz
      simp only [Finset.mem_filter, Finset.mem_univ, true_and] at hz
      simp only [Finset.mem_insert, Finset.mem_singleton]
      by_cases z0 : z = 0
      · exact .inl z0
      · by_cases za : z ^^^ a = 0
        · exact .inr (.inl (xor_eq_zero.mp za))
        · right; right
          have hd := ginv_difference (h2.trans hz.symm)
          have p1 := product h0 h1
          have p2 := product z0 za
          rw [← hd] at p2
          have hc : ginv x ^^^ ginv (x ^^^ a) ≠ 0 := by
            intro e
            rw [e, gmul_zero_right] at p1
            exact ha p1.symm
          refine same_product ?_
          have := p1.trans p2.symm
          rw [← xor_eq_zero, ← gmul_add_left, gmul_comm] at this
          exact xor_eq_zero.mp (gmul_eq_zero hc this)
    · exact Finset.card_le_four
  · refine (Finset.card_le_card (t := {0, a}) ?_).trans (Finset.card_le_two.trans (by decide))
    intro z hz
    simp only [Finset.mem_filter, Finset.mem_univ, true_and] at hz
    simp only [Finset.mem_insert, Finset.mem_singleton]
    by_contra hn
    push Not at hn
    exact hx ⟨z, hn.1, fun e => hn.2 (xor_eq_zero.mp e), hz⟩

/-! ### One round -/

/-- What a round does before it adds the key. -/
abbrev R (s : State) : State := mixColumns (shiftRows (subBytes s))

theorem linear (s t : State) : xorState (mixColumns (shiftRows s)) (mixColumns (shiftRows t)) = mixColumns (shiftRows (xorState s t)) := by
  funext r c
  exact (mixCol_xor (fun j => shiftRows s j c) (fun j => shiftRows t j c) r).symm

theorem linear_injective {s t : State} (h : mixColumns (shiftRows s) = mixColumns (shiftRows t)) : s = t := by
  have h1 : shiftRows s = shiftRows t := by rw [← invMix_mix (shiftRows s), h, invMix_mix]
  funext r c
  have := congrFun (congrFun h1 r) (c - r)
  simpa [shiftRows] using this

theorem xorState_key (s t k : State) : xorState (xorState s k) (xorState t k) = xorState s t := by
  funext r c
  show (s r c ^^^ k r c) ^^^ (t r c ^^^ k r c) = s r c ^^^ t r c
  rw [BitVec.xor_comm (t r c), BitVec.xor_assoc, ← BitVec.xor_assoc (k r c), BitVec.xor_self, BitVec.zero_xor]

open Classical in
/-- One byte: the keys with which the difference after the S-box is `y`. -/
theorem byte_keys (p q y : Spec.Byte) :
    (Finset.univ.filter fun k : Spec.Byte => sbox (p ^^^ k) ^^^ sbox (q ^^^ k) = y).card * 64 ^ (if p ^^^ q = 0 then 0 else 1) ≤ 256 := by
  by_cases h : p ^^^ q = 0
  · rw [if_pos h, pow_zero, Nat.mul_one]
    refine (Finset.card_le_univ _).trans (le_of_eq ?_)
    exact card_byte
  · rw [if_neg h, pow_one]
    have : (Finset.univ.filter fun k : Spec.Byte => sbox (p ^^^ k) ^^^ sbox (q ^^^ k) = y).card ≤
        (Finset.univ.filter fun x : Spec.Byte => sbox x ^^^ sbox (x ^^^ (p ^^^ q)) = y).card := by
      refine Finset.card_le_card_of_injOn (fun k => p ^^^ k) (fun k hk => ?_) fun a _ b _ e => (BitVec.xor_right_inj _).1 e
      simp only [Finset.coe_filter, Finset.mem_univ, true_and, Set.mem_ofPred_eq] at hk ⊢
      rw [show p ^^^ k ^^^ (p ^^^ q) = q ^^^ k by
        rw [BitVec.xor_comm p k, BitVec.xor_assoc, ← BitVec.xor_assoc p, BitVec.xor_self, BitVec.zero_xor, BitVec.xor_comm]]
      exact hk
    have := this.trans (sbox_differences (p ^^^ q) y h)
    omega

open Classical in
/-- One round: the keys with which the difference at its end is `e`. -/
theorem round_keys (p q e : State) :
    (Finset.univ.filter fun k : State => xorState (R (xorState p k)) (R (xorState q k)) = e).card * 64 ^ active (xorState p q) ≤
      Fintype.card State := by
  by_cases hx : ∃ k : State, xorState (R (xorState p k)) (R (xorState q k)) = e
  · obtain ⟨k0, hk0⟩ := hx
    set y : State := xorState (subBytes (xorState p k0)) (subBytes (xorState q k0)) with hy
    set S : Fin 4 → Fin 4 → Finset Spec.Byte := fun r c =>
      Finset.univ.filter fun k : Spec.Byte => sbox (p r c ^^^ k) ^^^ sbox (q r c ^^^ k) = y r c with hS
    have hsub : (Finset.univ.filter fun k : State => xorState (R (xorState p k)) (R (xorState q k)) = e) ⊆
        Fintype.piFinset fun r => Fintype.piFinset (S r) := by
      intro k hk
      simp only [Finset.mem_filter, Finset.mem_univ, true_and] at hk
      simp only [Fintype.mem_piFinset]
      intro r c
      rw [← hk0, linear, linear] at hk
      have := congrFun (congrFun (linear_injective hk) r) c
      simp only [hS, Finset.mem_filter, Finset.mem_univ, true_and]
      exact this
    have hc : (Fintype.piFinset fun r => Fintype.piFinset (S r)).card = ∏ r, ∏ c, (S r c).card := by
      simp only [Fintype.card_piFinset]
    have ha : 64 ^ active (xorState p q) = ∏ r : Fin 4, ∏ c : Fin 4, 64 ^ (if p r c ^^^ q r c = 0 then 0 else 1) := by
      simp only [Finset.prod_pow_eq_pow_sum]
      rfl
    have hs : Fintype.card State = ∏ r : Fin 4, ∏ c : Fin 4, 256 := by
      rw [Fintype.card_pi]
      refine Finset.prod_congr rfl fun r _ => ?_
      rw [Fintype.card_pi]
      exact Finset.prod_congr rfl fun c _ => card_byte
    refine (Nat.mul_le_mul_right _ (Finset.card_le_card hsub)).trans ?_
    rw [hc, ha, hs, ← Finset.prod_mul_distrib]
    simp only [← Finset.prod_mul_distrib]
    exact Finset.prod_le_prod' fun r _ => Finset.prod_le_prod' fun c _ => byte_keys _ _ _
  · rw [Finset.card_eq_zero.2, Nat.zero_mul]
    · exact Nat.zero_le _
    · rw [Finset.filter_eq_empty_iff]
      exact fun k _ h => hx ⟨k, h⟩

open Classical in
theorem round_chance (p q e : State) : (avg fun k : State => if xorState (R (xorState p k)) (R (xorState q k)) = e then (1 : ℚ) else 0) ≤
    1 / 64 ^ active (xorState p q) := by
  have h := avg_mem_card (Finset.univ.filter fun k : State => xorState (R (xorState p k)) (R (xorState q k)) = e)
  simp only [Finset.mem_filter, Finset.mem_univ, true_and] at h
  rw [h, div_le_div_iff₀ (by exact_mod_cast Fintype.card_pos) (by positivity), one_mul]
  exact_mod_cast round_keys p q e

/-! ### Many rounds -/

theorem before_congr {k l : Nat → State} (i : Nat) (h : ∀ j, j ≤ i → k j = l j) (p : State) : before k p i = before l p i := by
  induction i with
  | zero => rw [before, before, h 0 (Nat.le_refl 0)]
  | succ i ih => rw [before, before, ih fun j hj => h j (by omega), h _ (Nat.le_refl _)]

theorem before_shift (k : Nat → State) (p : State) (i : Nat) :
    before k p (i + 1) = before (fun j => k (j + 1)) (R (xorState p (k 0))) i := by
  induction i with
  | zero => rfl
  | succ i ih => rw [before, ih]; rfl

/-- The keys as a sequence. -/
def seq {n : Nat} (k : Fin (n + 1) → State) (j : Nat) : State := k (Fin.ofNat (n + 1) j)

theorem seq_lt {n : Nat} (k : Fin (n + 1) → State) (j : Nat) (h : j < n + 1) : seq k j = k ⟨j, h⟩ := by
  rw [seq]
  congr 1
  exact Fin.ext (Nat.mod_eq_of_lt h)

theorem seq_cons {n : Nat} (a : State) (k : Fin (n + 1) → State) (j : Nat) (h : j < n + 1) :
    seq (Fin.cons a k : Fin (n + 2) → State) (j + 1) = seq k j := by
  rw [seq_lt _ _ (by omega), seq_lt _ _ h]
  rfl

theorem foretold_zero {n : Nat} {d : Fin (n + 1) → State} {p q : State} {k : Fin (n + 1) → State} (h : Foretold n d p q k) :
    xorState p q = d 0 := by
  have := h 0
  rwa [show ((0 : Fin (n + 1)) : Nat) = 0 from rfl, before, before, xorState_key] at this

theorem foretold_cons {n : Nat} {d : Fin (n + 2) → State} {p q a : State} {k : Fin (n + 1) → State}
    (h : Foretold (n + 1) d p q (Fin.cons a k)) : Foretold n (fun i => d i.succ) (R (xorState p a)) (R (xorState q a)) k := by
  intro i
  have := h i.succ
  rw [Fin.val_succ, before_shift, before_shift] at this
  refine Eq.trans ?_ this
  have e (p : State) : before (fun j => k (Fin.ofNat (n + 1) j)) p i =
      before (fun j => (Fin.cons a k : Fin (n + 2) → State) (Fin.ofNat (n + 1 + 1) (j + 1))) p i :=
    before_congr _ (fun j hj => (seq_cons a k j (by omega)).symm) p
  rw [e, e]
  rfl

theorem chance_nonneg (n : Nat) (d : Fin (n + 1) → State) (p q : State) : 0 ≤ chance n d p q :=
  avg_nonneg fun k => by split <;> norm_num

theorem chance_le_one (n : Nat) (d : Fin (n + 1) → State) (p q : State) : chance n d p q ≤ 1 :=
  avg_le_one fun k => by split <;> norm_num

theorem chance_of_ne (n : Nat) (d : Fin (n + 1) → State) (p q : State) (h : ∀ k, ¬ Foretold n d p q k) : chance n d p q = 0 := by
  simp [chance, avg, h]

open Classical in
theorem chance_succ (n : Nat) (d : Fin (n + 2) → State) (p q : State) : chance (n + 1) d p q ≤
    avg fun a : State => chance n (fun i => d i.succ) (R (xorState p a)) (R (xorState q a)) := by
  rw [chance, ← avg_equiv (Fin.consEquiv fun _ => State), avg_prod]
  refine avg_mono fun a => avg_mono fun k => ?_
  split
  · next h => rw [if_pos (foretold_cons h)]
  · split <;> norm_num

open Classical in
theorem chance_le (n : Nat) : ∀ (d : Fin (n + 1) → State) (p q : State),
    chance n d p q ≤ 1 / 64 ^ (∑ i : Fin n, active (d i.castSucc)) := by
  induction n with
  | zero =>
    intro d p q
    rw [Fin.sum_univ_zero, pow_zero, div_one]
    exact chance_le_one _ _ _ _
  | succ n ih =>
    intro d p q
    by_cases h0 : xorState p q = d 0
    · refine (chance_succ n d p q).trans ?_
      have : (avg fun a : State => chance n (fun i => d i.succ) (R (xorState p a)) (R (xorState q a))) ≤
          avg fun a : State => (1 / 64 ^ (∑ i : Fin n, active (d i.castSucc.succ))) *
            (if xorState (R (xorState p a)) (R (xorState q a)) = d 1 then (1 : ℚ) else 0) := by
        refine avg_mono fun a => ?_
        split
        · rw [mul_one]
          exact ih _ _ _
        · next hn =>
          rw [mul_zero, chance_of_ne]
          intro k hk
          exact hn (foretold_zero hk)
      refine this.trans ?_
      rw [avg, ← Finset.mul_sum, mul_div_assoc]
      have hr := round_chance p q (d 1)
      rw [avg] at hr
      refine (mul_le_mul_of_nonneg_left hr (by positivity)).trans (le_of_eq ?_)
      rw [Fin.sum_univ_succ, pow_add, h0, div_mul_div_comm, one_mul, mul_comm]
      rfl
    · rw [chance_of_ne _ _ _ _ fun k hk => h0 (foretold_zero hk)]
      positivity

/-! ### Trails -/

theorem active_eq (s t : State) : active (xorState s t) = weight (diff s t) := by
  rw [weight_eq, active]
  refine Finset.sum_congr rfl fun r _ => Finset.sum_congr rfl fun c _ => ?_
  show (if s r c ^^^ t r c = 0 then 0 else 1) = _
  by_cases h : s r c = t r c
  · rw [if_pos (xor_eq_zero.mpr h), if_neg (by simp [diff, h])]
  · rw [if_neg fun e => h (xor_eq_zero.mp e), if_pos (by simp [diff, h])]

theorem diff_xor (s t k : State) : diff (xorState s k) (xorState t k) = diff s t := by
  funext r c
  refine Bool.eq_iff_iff.2 ?_
  simp only [diff, xorState, bne_iff_ne]
  exact not_congr ⟨(BitVec.xor_left_inj _).1, fun h => by rw [h]⟩

section
variable (k : Nat → State) (p q : State)

theorem before_mixes (i : Nat) : Mixes (shift.pat (diff (before k p i) (before k q i))) (diff (before k p (i + 1)) (before k q (i + 1))) := by
  rw [before, before, diff_xor, ← diff_sub, ← diff_shift]
  exact diff_mix _ _

theorem before_alive (h : p ≠ q) (i : Nat) : ∃ r c, diff (before k p i) (before k q i) r c = true := by
  induction i with
  | zero =>
    rw [before, before, diff_xor]
    exact diff_exists.2 h
  | succ i ih =>
    obtain ⟨c, hc⟩ := pat_nonzero shift ih
    have hp : 0 < cols (shift.pat (diff (before k p i) (before k q i))) := Finset.card_pos.2 ⟨c, by simpa using hc⟩
    rw [(before_mixes k p q i).cols] at hp
    obtain ⟨c, hc⟩ := Finset.card_pos.1 hp
    obtain ⟨r, hr⟩ : ∃ r, diff (before k p (i + 1)) (before k q (i + 1)) r c = true := by simpa using hc
    exact ⟨r, c, hr⟩

/-- The differing bytes before the S-boxes of round `i`. -/
def wt (i : Nat) : Nat := weight (diff (before k p i) (before k q i))

theorem wt_two (h : p ≠ q) (i : Nat) : 5 ≤ wt k p q i + wt k p q (i + 1) :=
  two_rounds shift (before_alive k p q h i) (before_mixes k p q i)

theorem wt_four (h : p ≠ q) (i : Nat) : 25 ≤ wt k p q i + wt k p q (i + 1) + wt k p q (i + 2) + wt k p q (i + 3) :=
  four_rounds shift (before_alive k p q h (i + 1)) (before_mixes k p q i) (before_mixes k p q (i + 1)) (before_mixes k p q (i + 2))

theorem wt_one (h : p ≠ q) (i : Nat) : 1 ≤ wt k p q i := by
  obtain ⟨r, c, hr⟩ := before_alive k p q h i
  rw [wt, weight]
  have h1 : 1 ≤ inCol (diff (before k p i) (before k q i)) c := Finset.card_pos.2 ⟨r, by simpa using hr⟩
  exact h1.trans (Finset.single_le_sum (f := inCol (diff (before k p i) (before k q i))) (fun _ _ => Nat.zero_le _) (Finset.mem_univ c))

theorem wt_all (h : p ≠ q) (n : Nat) : 25 * (n / 4) + 5 * (n % 4 / 2) + n % 2 ≤ ∑ i ∈ Finset.range n, wt k p q i := by
  have hm (m : Nat) : 25 * m ≤ ∑ i ∈ Finset.range (4 * m), wt k p q i := by
    induction m with
    | zero => simp
    | succ m ih =>
      have := wt_four k p q h (4 * m)
      rw [show 4 * (m + 1) = 4 * m + 1 + 1 + 1 + 1 by omega]
      simp only [Finset.sum_range_succ]
      simp only [Nat.add_assoc] at this ⊢
      omega
  have h4 := hm (n / 4)
  have h2 := wt_two k p q h (4 * (n / 4))
  have h0 := wt_one k p q h (4 * (n / 4))
  have h1 := wt_one k p q h (4 * (n / 4) + 2)
  have hn : n = 4 * (n / 4) ∨ n = 4 * (n / 4) + 1 ∨ n = 4 * (n / 4) + 1 + 1 ∨ n = 4 * (n / 4) + 1 + 1 + 1 := by omega
  rcases hn with e | e | e | e <;> rw [show Finset.range n = Finset.range _ from congrArg _ e]
  · omega
  · rw [Finset.sum_range_succ]
    omega
  · rw [Finset.sum_range_succ, Finset.sum_range_succ]
    omega
  · rw [Finset.sum_range_succ, Finset.sum_range_succ, Finset.sum_range_succ, show 4 * (n / 4) + 1 + 1 = 4 * (n / 4) + 2 from rfl]
    omega
end

theorem trail_chance (n : Nat) (d : Fin (n + 1) → State) (p q : State) (h : p ≠ q) :
    chance n d p q ≤ 1 / 64 ^ (25 * (n / 4) + 5 * (n % 4 / 2) + n % 2) := by
  by_cases hk : ∃ k, Foretold n d p q k
  · obtain ⟨k, hk⟩ := hk
    refine (chance_le n d p q).trans ?_
    refine one_div_le_one_div_of_le (by positivity) (pow_le_pow_right₀ (by norm_num) ?_)
    refine (wt_all (fun j => k (Fin.ofNat (n + 1) j)) p q h n).trans (le_of_eq ?_)
    rw [← Fin.sum_univ_eq_sum_range]
    refine Finset.sum_congr rfl fun i _ => ?_
    rw [← hk i.castSucc, active_eq]
    rfl
  · rw [chance_of_ne _ _ _ _ fun k h => hk ⟨k, h⟩]
    positivity

end Verif.Trail
