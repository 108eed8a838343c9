import Verif.Proof.TableMachine
import Verif.Props.TableMemory

/-!
Property C113: scrypt cannot be computed in little memory without taking much longer. The whole of scryptROMix, the filling of the table and the
second loop, is done by a machine that keeps no more than `M` octets from one step to the next. In each step it evaluates scryptBlockMix, which is
taken for a random function, on up to `c` arguments at the same time. Machines are in `Spec/TableMachine.lean`.
-/

namespace Verif.Props.MemoryHard
open Verif Verif.Source Verif.Props.Source Verif.Props.FromText Verif.Props.ScryptKeys Verif.Props.TableMemory Spec.TableGames Spec.TableMachine
open Verif.Text hiding functions fill
open Spec.ScryptGames (Params)
open Spec.Games (avg avg_mono)

attribute [local irreducible] avg

theorem xor_left (w : Nat) (a b : Entry w) : List.Vector.map₂ (· ^^^ ·) (List.Vector.map₂ (· ^^^ ·) a b) a = b := by
  refine List.Vector.ext fun i => ?_
  simp only [List.Vector.get_map₂]
  rw [BitVec.xor_comm (a.get i), BitVec.xor_assoc, BitVec.xor_self, BitVec.xor_zero]

theorem xor_right (w : Nat) (a b : Entry w) : List.Vector.map₂ (· ^^^ ·) (List.Vector.map₂ (· ^^^ ·) a b) b = a := by
  refine List.Vector.ext fun i => ?_
  simp only [List.Vector.get_map₂]
  rw [BitVec.xor_assoc, BitVec.xor_self, BitVec.xor_zero]

theorem loopX_eq {w : Nat} (f : Entry w → Entry w) (index : Entry w → Nat) (N : Nat) (hN : 0 < N) (B : Entry w) (k : Nat) :
    loopX (List.Vector.map₂ (· ^^^ ·)) (fun X => (⟨index X % N, Nat.mod_lt _ hN⟩ : Fin N)) B f k = state f index N B k := by
  induction k with
  | zero => rfl
  | succ k ih => rw [loopX, ih, state]

/-- The values of `X`, by the number of the entry that comes next. -/
theorem balanced_equiv {w : Nat} (index : Entry w → Nat) (N : Nat) (hN : 0 < N) (hb : Balanced index N) :
    ∃ e : Entry w ≃ Fin N × Fin (Fintype.card (Entry w) / N), ∀ X, ((e X).1 : Nat) = index X % N := by
  classical
  let g (X : Entry w) : Fin N := ⟨index X % N, Nat.mod_lt _ hN⟩
  have hg (j : Fin N) : Fintype.card {X // g X = j} = Fintype.card (Entry w) / N := by
    rw [Fintype.card_subtype, ← hb j.1 j.2, Nat.mul_div_cancel_left _ hN]
    congr 1
    ext X
    simp [g, Fin.ext_iff]
  refine ⟨(Equiv.sigmaFiberEquiv g).symm.trans ((Equiv.sigmaCongrRight fun j => Fintype.equivFinOfCardEq (hg j)).trans (Equiv.sigmaEquivProd _ _)),
    fun X => rfl⟩

theorem slow_le {τ : Nat → Nat} {d k : Nat} (h : ∀ i < k, τ i < τ (i + 1)) :
    d * ((Finset.range k).filter fun i => τ i + d ≤ τ (i + 1)).card ≤ τ k := by
  induction k with
  | zero => simp
  | succ k ih =>
    have h1 := ih fun i hi => h i (by omega)
    have h2 := h k (by omega)
    rw [Finset.range_add_one, Finset.filter_insert]
    split_ifs with hs
    · rw [Finset.card_insert_of_notMem (by simp), Nat.mul_add]
      omega
    · omega

/-- **C113.** Let a machine keep one of the values of a finite type between two steps, and let it start with one of them that does not depend on
the function. In each step there are up to `c` evaluations of the function. The probability that the machine has the result of scryptROMix after
`T` steps is small, if `T` is at most `(N - m) * d`, where `m` is such that `m` out of `N` random entries are rarely among `p * d` of them, and `p` is
about the number of entries that the machine can keep. The number `A` is for the values that are better than others: they are one in `A`. -/
theorem C113_machine (w : Nat) {σ : Type} [Fintype σ] (index : Entry w → Nat) (N : Nat) (hN : 0 < N) (hb : Balanced index N) (B : Entry w)
    (c : Nat) (hc : 1 ≤ c) (M : σ → Act c σ (Entry w)) (s₀ : σ) (T d m p A : Nat) (hA : 0 < A) (hp : ((p * d : Nat) / N + 1 / A : ℚ) ≤ 1)
    (hT : T ≤ (N - m) * d) :
    (avg fun f : Entry w → Entry w => if outcome f M T s₀ = some (roMix f index N B) then 1 else 0) ≤
      (N - 1).choose m * ((p * d : Nat) / N + 1 / A : ℚ) ^ m +
      (N - 1 : Nat) * (Fintype.card σ * ((d : ℚ) * c * A * (2 * ((c : ℚ) * N * (d + 1)) ^ 2 / Fintype.card (Entry w)) ^ p)) +
      (N : ℚ) ^ 2 * (2 * N + c * (T + 1) + 3) / Fintype.card (Entry w) := by
  have : Nonempty (Entry w) := ⟨B⟩
  obtain ⟨e, he⟩ := balanced_equiv index N hN hb
  have hR : 0 < Fintype.card (Fin (Fintype.card (Entry w) / N)) := Fintype.card_pos_iff.2 ⟨(e B).2⟩
  refine memory (σ := σ) (op := List.Vector.map₂ (· ^^^ ·)) (ix := fun X => (⟨index X % N, Nat.mod_lt _ hN⟩ : Fin N)) (B := B) (M := M) (s₀ := s₀)
    (d := fun _ => d) (ρ := fun _ => p) (xor_left w) (xor_right w) e (fun u => Fin.ext (he u)) hA (fun _ => le_rfl) (fun _ => le_rfl) _ _ rfl hp
    (fun bad _ hbad => (avg_near hc hR e _ A d bad hbad).trans_eq ?_) m T
    (fun f => outcome f M T s₀ = some (roMix f index N B)) (fun f hf => ?_) fun f _ => ?_
  · rw [Finset.sum_const, Finset.card_univ, nsmul_eq_mul]
  · rw [loopX_eq f index N hN B N]
    exact hf
  · rintro ⟨τ, I, hI, h1, h2, h3, h4⟩
    have h5 := slow_le (d := d) h2
    have h6 : I.card ≤ ((Finset.range (N - 1)).filter fun i => τ i + d ≤ τ (i + 1)).card :=
      Finset.card_le_card fun i hi => Finset.mem_filter.2 ⟨hI hi, h4 i hi _ le_rfl⟩
    have h7 : (N - m) * d ≤ d * ((Finset.range (N - 1)).filter fun i => τ i + d ≤ τ (i + 1)).card := by
      rw [Nat.mul_comm]
      exact Nat.mul_le_mul_left _ (by omega)
    have := (h1 (N - 1) le_rfl).1
    omega

/-! ### Integerify -/

theorem littleEndian_xor (a b : List U8) (h : a.length = b.length) :
    Spec.Scrypt.littleEndian (Spec.xorBytes a b) = Spec.Scrypt.littleEndian a ^^^ Spec.Scrypt.littleEndian b := by
  induction a generalizing b with
  | nil =>
    obtain rfl := List.length_eq_zero_iff.1 h.symm
    rfl
  | cons x a ih =>
    cases b with
    | nil => simp at h
    | cons y b =>
      have := ih b (by simpa using h)
      rw [Spec.xorBytes] at this ⊢
      rw [List.zipWith_cons_cons, Spec.Scrypt.littleEndian, Spec.Scrypt.littleEndian, Spec.Scrypt.littleEndian, this, BitVec.toNat_xor]
      refine Nat.eq_of_testBit_eq fun i => ?_
      have hx := x.isLt
      have hy := y.isLt
      have hxy : x.toNat ^^^ y.toNat < 2 ^ 8 := Nat.xor_lt_two_pow hx hy
      rw [Nat.testBit_xor, show 256 = 2 ^ 8 from rfl, Nat.add_comm, Nat.add_comm x.toNat, Nat.add_comm y.toNat,
        Nat.testBit_two_pow_mul_add _ hxy, Nat.testBit_two_pow_mul_add _ hx, Nat.testBit_two_pow_mul_add _ hy]
      split_ifs <;> simp

theorem littleEndian_lt (a : List U8) : Spec.Scrypt.littleEndian a < 2 ^ (8 * a.length) := by
  induction a with
  | nil => simp [Spec.Scrypt.littleEndian]
  | cons x a ih =>
    rw [Spec.Scrypt.littleEndian, List.length_cons, Nat.mul_add, Nat.pow_add]
    have := x.isLt
    omega

/-- The octets of a number. -/
def octets : (n : Nat) → (v : Nat) → List U8
  | 0, _ => []
  | n + 1, v => BitVec.ofNat 8 v :: octets n (v / 256)

theorem octets_length (n v : Nat) : (octets n v).length = n := by
  induction n generalizing v with
  | zero => rfl
  | succ n ih => rw [octets, List.length_cons, ih]

theorem littleEndian_octets (n v : Nat) (h : v < 2 ^ (8 * n)) : Spec.Scrypt.littleEndian (octets n v) = v := by
  induction n generalizing v with
  | zero =>
    rw [Nat.mul_zero, Nat.pow_zero] at h
    rw [octets, Spec.Scrypt.littleEndian]
    omega
  | succ n ih =>
    rw [Nat.mul_add, Nat.pow_add] at h
    rw [octets, Spec.Scrypt.littleEndian, ih (v / 256) (by omega), BitVec.toNat_ofNat]
    omega

theorem block_xor (a b : List U8) (i : Nat) : Spec.Scrypt.block (Spec.xorBytes a b) i = Spec.xorBytes (Spec.Scrypt.block a i) (Spec.Scrypt.block b i) := by
  rw [Spec.Scrypt.block, Spec.Scrypt.block, Spec.Scrypt.block, Spec.xorBytes, Spec.xorBytes, List.drop_zipWith, List.take_zipWith]

theorem xor_mod_two_pow (a b n : Nat) : (a ^^^ b) % 2 ^ n = (a % 2 ^ n) ^^^ (b % 2 ^ n) := by
  refine Nat.eq_of_testBit_eq fun i => ?_
  simp only [Nat.testBit_mod_two_pow, Nat.testBit_xor]
  by_cases h : i < n <;> simp [h]

/-- The function Integerify of scrypt does not prefer any entry. -/
theorem integerify_balanced (r n : Nat) (hr : 1 ≤ r) (hn : n ≤ 512) : Balanced (fun X : Entry (128 * r) => Spec.Scrypt.integerify r X.toList) (2 ^ n) := by
  classical
  let g (X : Entry (128 * r)) : Nat := Spec.Scrypt.integerify r X.toList % 2 ^ n
  have hlen (X : Entry (128 * r)) : (Spec.Scrypt.block X.toList (2 * r - 1)).length = 64 := by
    rw [Spec.Scrypt.block, List.length_take, List.length_drop, List.Vector.toList_length]
    omega
  let c (j : Nat) : Entry (128 * r) := ofList (128 * r) (List.replicate (128 * r - 64) 0 ++ octets 64 j)
  have hc (j : Nat) (hj : j < 2 ^ n) : g (c j) = j := by
    have h1 : (c j).toList = List.replicate (128 * r - 64) 0 ++ octets 64 j := toList_ofList _ _ (by
      rw [List.length_append, List.length_replicate, octets_length]
      omega)
    have h2 : Spec.Scrypt.block (c j).toList (2 * r - 1) = octets 64 j := by
      rw [Spec.Scrypt.block, h1, List.drop_append_of_le_length (by rw [List.length_replicate]; omega), List.drop_of_length_le (by
        rw [List.length_replicate]
        omega), List.nil_append, List.take_of_length_le (octets_length _ _).le]
    have h3 (K : Nat) (hK : n ≤ K) : 2 ^ n ≤ 2 ^ K := Nat.pow_le_pow_right (by omega) hK
    simp only [g]
    rw [Spec.Scrypt.integerify, h2, littleEndian_octets 64 j (lt_of_lt_of_le hj (h3 _ hn)), Nat.mod_eq_of_lt hj]
  have hx (X Y : Entry (128 * r)) : g (List.Vector.map₂ (· ^^^ ·) X Y) = g X ^^^ g Y := by
    simp only [g, Spec.Scrypt.integerify]
    rw [toList_map₂, block_xor, littleEndian_xor _ _ ((hlen X).trans (hlen Y).symm), xor_mod_two_pow]
  have hfib (j : Nat) (hj : j < 2 ^ n) : (Finset.univ.filter fun X => g X = j).card = (Finset.univ.filter fun X => g X = 0).card := by
    refine Finset.card_bij' (fun X _ => List.Vector.map₂ (· ^^^ ·) X (c j)) (fun X _ => List.Vector.map₂ (· ^^^ ·) X (c j)) (fun X hX => ?_) (fun X hX => ?_)
      (fun X _ => xor_right _ X (c j)) fun X _ => xor_right _ X (c j)
    · rw [Finset.mem_filter] at hX ⊢
      exact ⟨Finset.mem_univ _, by rw [hx, hX.2, hc j hj, Nat.xor_self]⟩
    · rw [Finset.mem_filter] at hX ⊢
      exact ⟨Finset.mem_univ _, by rw [hx, hX.2, hc j hj, Nat.zero_xor]⟩
  have hsum : Fintype.card (Entry (128 * r)) = 2 ^ n * (Finset.univ.filter fun X => g X = 0).card := by
    have := Finset.card_eq_sum_card_fiberwise (s := (Finset.univ : Finset (Entry (128 * r)))) (t := Finset.range (2 ^ n)) (f := g)
      fun X _ => Finset.mem_coe.2 (Finset.mem_range.2 (Nat.mod_lt _ (Nat.two_pow_pos n)))
    rw [← Finset.card_univ, this, Finset.sum_congr rfl fun j hj => hfib j (Finset.mem_range.1 hj), Finset.sum_const, Finset.card_range, smul_eq_mul]
  intro j hj
  rw [hsum]
  exact congrArg _ (hfib j hj)

/-! ### In octets -/

/-- One in `2 ^ 72` more makes no difference. -/
theorem eighth (H : Nat) (hH : (H : ℚ) ≤ 2 ^ 63) : (1 / 8 + 1 / 2 ^ 72 : ℚ) ^ H ≤ 2 * (1 / 8) ^ H := by
  have h1 : (1 : ℚ) / 2 ≤ (1 - 1 / 2 ^ 69) ^ H := by
    have := one_add_mul_le_pow (a := -(1 / 2 ^ 69 : ℚ)) (by norm_num) H
    rw [← sub_eq_add_neg] at this
    refine le_trans ?_ this
    have : (H : ℚ) * (1 / 2 ^ 69) ≤ 2 ^ 63 * (1 / 2 ^ 69) := by gcongr
    have h2 : (2 : ℚ) ^ 63 * (1 / 2 ^ 69) ≤ 1 / 2 := by norm_num
    linarith
  have h2 : ((1 / 8 + 1 / 2 ^ 72 : ℚ) ^ H) * (1 - 1 / 2 ^ 69) ^ H ≤ (1 / 8) ^ H := by
    rw [← mul_pow]
    refine pow_le_pow_left₀ (by norm_num) (by norm_num) H
  have h3 : (0 : ℚ) ≤ (1 / 8 + 1 / 2 ^ 72) ^ H := by positivity
  have h4 := mul_le_mul_of_nonneg_left h1 h3
  linarith

/-- **C113.** In octets: let `p` be a little more than the number of entries that `M` octets can hold, `M + 26 ≤ p * (128 * r - 17)`,
and let `d` be `N / (8 * p)`. A machine that keeps `M` octets between two steps, with up to `c`
evaluations of scryptBlockMix in each of them, does not have the result of scryptROMix after `N / 2 * d` steps, that is about `N ^ 2 / (16 * p)`,
except with a probability of `1 / 2 ^ (N / 2) + 1 / 2 ^ 64`. The bound on `c` is far away: there are no more than `2 ^ 64` evaluations. Integerify is
the one of scrypt, and `N` is a power of two. -/
theorem C113_octets (r n M : Nat) (hr : 1 ≤ r) (hn : 1 ≤ n) (B : Entry (128 * r))
    (c : Nat) (hc₁ : 1 ≤ c) (machine : List.Vector U8 M → Act c (List.Vector U8 M) (Entry (128 * r))) (s₀ : List.Vector U8 M) (T d p : Nat)
    (hM : M + 26 ≤ p * (128 * r - 17)) (hd : 8 * p * d ≤ 2 ^ n) (hcN : c * (2 ^ n * (d + 1)) ≤ 2 ^ 64)
    (hT : T ≤ 2 ^ n / 2 * d) :
    (avg fun f : Entry (128 * r) → Entry (128 * r) =>
      if outcome f machine T s₀ = some (roMix f (fun X => Spec.Scrypt.integerify r X.toList) (2 ^ n) B) then 1 else 0) ≤
      (1 : ℚ) / 2 ^ (2 ^ n / 2) + 1 / 2 ^ 64 := by
  have hN : 2 ^ n * (d + 1) ≤ 2 ^ 64 := (Nat.le_mul_of_pos_left _ hc₁).trans hcN
  have hc64 : c ≤ 2 ^ 64 := (Nat.le_mul_of_pos_right _ (Nat.mul_pos (Nat.two_pow_pos n) (Nat.succ_pos d))).trans hcN
  have hn64 : n ≤ 64 := (Nat.pow_le_pow_iff_right (by omega)).1 ((Nat.le_mul_of_pos_right _ (Nat.succ_pos d)).trans hN)
  have hbal := integerify_balanced r n hr (by omega)
  obtain ⟨H, hH⟩ : ∃ H, 2 ^ n = 2 * H := ⟨2 ^ (n - 1), by rw [← Nat.pow_succ']; congr 1; omega⟩
  have hH0 : 0 < H := by
    have := Nat.two_pow_pos n
    omega
  rw [hH] at hd hN hcN hT hbal ⊢
  rw [Nat.mul_div_cancel_left H (by omega)] at hT ⊢
  have hHq : (0 : ℚ) < H := by exact_mod_cast hH0
  have h18 : ((p * d : Nat) / (2 * H : Nat) : ℚ) ≤ 1 / 8 := by
    rw [div_le_div_iff₀ (by positivity) (by norm_num), one_mul]
    have : p * d * 8 ≤ 2 * H := by rw [← Nat.mul_comm 8, ← Nat.mul_assoc]; exact hd
    exact_mod_cast this
  have hA72 : ((2 ^ 72 : Nat) : ℚ) = 2 ^ 72 := by norm_num
  refine (C113_machine (128 * r) _ (2 * H) (by omega) hbal B c hc₁ machine s₀ T d H p (2 ^ 72) (by positivity) (by
    rw [hA72]
    refine (add_le_add_left h18 _).trans ?_
    norm_num) (by rw [show 2 * H - H = H by omega]; exact hT)).trans ?_
  have hU : Fintype.card U8 = 2 ^ 8 := (Fintype.ofEquiv_card _).trans (Fintype.card_fin _)
  have hc (w : Nat) : Fintype.card (List.Vector U8 w) = 2 ^ (8 * w) := by rw [card_vector, hU, ← pow_mul]
  have hchoose : ((2 * H - 1).choose H : ℚ) ≤ 2 ^ (2 * H - 1) := by exact_mod_cast Nat.choose_le_two_pow _ _
  have h64 : (c : ℚ) * (2 * H : Nat) * (d + 1) ≤ 2 ^ 64 := by rw [mul_assoc]; exact_mod_cast hcN
  have hcq : (c : ℚ) ≤ 2 ^ 64 := by exact_mod_cast hc64
  have e : (2 : ℚ) ^ (8 * (128 * r)) = 2 ^ (8 * (128 * r - 17)) * 2 ^ 136 := by
    rw [← pow_add]
    congr 1
    omega
  -- the evaluations that come soon
  have hH63 : (H : ℚ) ≤ 2 ^ 63 := by
    have h1 := (Nat.le_mul_of_pos_right _ (Nat.succ_pos d)).trans hN
    have : H ≤ 2 ^ 63 := by omega
    exact_mod_cast this
  have t1 : ((2 * H - 1).choose H : ℚ) * ((p * d : Nat) / (2 * H : Nat) + 1 / (2 ^ 72 : Nat) : ℚ) ^ H ≤ 1 / 2 ^ H := by
    have h1 := eighth H hH63
    calc ((2 * H - 1).choose H : ℚ) * ((p * d : Nat) / (2 * H : Nat) + 1 / (2 ^ 72 : Nat) : ℚ) ^ H ≤ 2 ^ (2 * H - 1) * (1 / 8 + 1 / 2 ^ 72) ^ H := by
          rw [hA72]
          gcongr
      _ ≤ 2 ^ (2 * H - 1) * (2 * (1 / 8) ^ H) := by gcongr
      _ = 2 ^ (2 * H) * (1 / 8) ^ H := by
          rw [← mul_assoc, ← pow_succ, show 2 * H - 1 + 1 = 2 * H by omega]
      _ = 1 / 2 ^ H := by
          rw [pow_mul, ← mul_pow, ← one_div_pow]
          norm_num
  -- the contents of the memory
  have t2 : ((2 * H - 1 : Nat) : ℚ) * (Fintype.card (List.Vector U8 M) * ((d : ℚ) * c * (2 ^ 72 : Nat) *
      (2 * ((c : ℚ) * (2 * H : Nat) * (d + 1)) ^ 2 / Fintype.card (Entry (128 * r))) ^ p)) ≤ 1 / 2 ^ 65 := by
    rw [hc, hc, hA72]
    have h1 : (2 * ((c : ℚ) * (2 * H : Nat) * (d + 1)) ^ 2 / (2 ^ (8 * (128 * r)) : Nat)) ≤ 1 / 2 ^ (8 * (128 * r - 17)) := by
      push_cast at h64 ⊢
      rw [e, div_le_div_iff₀ (by positivity) (by positivity), one_mul, mul_comm (2 ^ (8 * (128 * r - 17)))]
      gcongr
      calc 2 * ((c : ℚ) * (2 * H) * (d + 1)) ^ 2 ≤ 2 * (2 ^ 64) ^ 2 := by gcongr
        _ ≤ 2 ^ 136 := by norm_num
    have h2 : (2 * ((c : ℚ) * (2 * H : Nat) * (d + 1)) ^ 2 / (2 ^ (8 * (128 * r)) : Nat)) ^ p ≤ 1 / 2 ^ (8 * (M + 26)) := by
      refine (pow_le_pow_left₀ (by positivity) h1 p).trans ?_
      rw [div_pow, one_pow, ← pow_mul]
      refine one_div_le_one_div_of_le (by positivity) (pow_le_pow_right₀ (by norm_num) ?_)
      rw [Nat.mul_assoc, Nat.mul_comm _ p]
      exact Nat.mul_le_mul_left _ hM
    have h3 : ((2 * H - 1 : Nat) : ℚ) * (d * c) ≤ 2 ^ 64 := by
      have : (2 * H - 1) * (d * c) ≤ 2 ^ 64 := by
        refine le_trans ?_ hcN
        rw [Nat.mul_comm d c, Nat.mul_left_comm]
        exact Nat.mul_le_mul_left _ (Nat.mul_le_mul (by omega) (by omega))
      exact_mod_cast this
    calc ((2 * H - 1 : Nat) : ℚ) * ((2 ^ (8 * M) : Nat) * ((d : ℚ) * c * 2 ^ 72 *
          (2 * ((c : ℚ) * (2 * H : Nat) * (d + 1)) ^ 2 / (2 ^ (8 * (128 * r)) : Nat)) ^ p)) ≤
        ((2 * H - 1 : Nat) : ℚ) * ((2 ^ (8 * M) : Nat) * ((d : ℚ) * c * 2 ^ 72 * (1 / 2 ^ (8 * (M + 26))))) := by gcongr
      _ = (((2 * H - 1 : Nat) : ℚ) * (d * c)) * 2 ^ 72 * (2 ^ (8 * M) * (1 / 2 ^ (8 * (M + 26)))) := by push_cast; ring
      _ ≤ 2 ^ 64 * 2 ^ 72 * (2 ^ (8 * M) * (1 / 2 ^ (8 * (M + 26)))) := by gcongr
      _ = 2 ^ 64 * 2 ^ 72 / 2 ^ 208 := by
          rw [Nat.mul_add, pow_add]
          field_simp
      _ ≤ 1 / 2 ^ 65 := by norm_num
  -- what happens by chance
  have t3 : ((2 * H : Nat) : ℚ) ^ 2 * (2 * (2 * H : Nat) + c * (T + 1) + 3) / Fintype.card (Entry (128 * r)) ≤ 1 / 2 ^ 65 := by
    rw [hc]
    have h1 : ((2 * H : Nat) : ℚ) ≤ 2 ^ 64 := by exact_mod_cast (Nat.le_mul_of_pos_right _ (Nat.succ_pos d)).trans hN
    have h2 : (c : ℚ) * (T + 1) ≤ 2 ^ 64 := by
      have : T + 1 ≤ 2 * H * (d + 1) := by
        have : H * d ≤ 2 * H * d := Nat.mul_le_mul_right _ (by omega)
        rw [Nat.mul_add, Nat.mul_one]
        omega
      exact_mod_cast (Nat.mul_le_mul_left c this).trans hcN
    have h4 : (2 : ℚ) ^ 300 ≤ 2 ^ (8 * (128 * r)) := pow_le_pow_right₀ (by norm_num) (by omega)
    push_cast at h1 ⊢
    rw [div_le_div_iff₀ (by positivity) (by positivity), one_mul]
    refine le_trans ?_ h4
    calc (2 * H : ℚ) ^ 2 * (2 * (2 * H) + c * (T + 1) + 3) * 2 ^ 65 ≤ (2 ^ 64) ^ 2 * (2 * 2 ^ 64 + 2 ^ 64 + 3) * 2 ^ 65 := by gcongr
      _ ≤ 2 ^ 300 := by
          rw [show (2 : ℚ) ^ 300 = 2 ^ 200 * 2 ^ 100 by rw [← pow_add]]
          norm_num
  have t4 : (1 : ℚ) / 2 ^ 65 + 1 / 2 ^ 65 = 1 / 2 ^ 64 := by norm_num
  linarith

/-! ### Keeping every `k`-th entry -/

theorem outcome_mono {c : Nat} {σ E : Type} (f : E → E) (M : σ → Act c σ E) (T T' : Nat) (hT : T ≤ T') (s : σ) (y : E) (h : outcome f M T s = some y) :
    outcome f M T' s = some y := by
  induction T generalizing s T' with
  | zero =>
    cases T' with
    | zero => exact h
    | succ T' =>
      rw [outcome.eq_def] at h ⊢
      cases e : M s with
      | result y' => simpa [e] using h
      | eval q next => simp [e] at h
  | succ T ih =>
    obtain ⟨T', rfl⟩ : ∃ n, T' = n + 1 := ⟨T' - 1, by omega⟩
    rw [outcome] at h ⊢
    cases e : M s with
    | result y' => simpa [e] using h
    | eval q next =>
      simp only [e] at h ⊢
      exact ih T' (by omega) _ h

section
variable {w p k N : Nat} (f : Entry w → Entry w) (index : Entry w → Nat) (hk : 0 < k) (hN : 0 < N) (h : N = p * k) (B : Entry w)

theorem climbing (kept : Fin p → Entry w) (X : Entry w) (c : Fin (N + 1)) (hc : c.1 < N) (l i : Nat) (hl : l < k) (T : Nat) :
    outcome f (keeper index hk hN h) (T + l + 1) (.inr (kept, X, entry f B i, c, ⟨l, hl⟩)) =
      outcome f (keeper index hk hN h) T (look index hk hN h kept (f (List.Vector.map₂ (· ^^^ ·) X (entry f B (i + l)))) ⟨c.1 + 1, by omega⟩) := by
  induction l generalizing i with
  | zero =>
    rw [outcome, keeper]
    simp [hc]
  | succ l ih =>
    have := ih (i + 1) (by omega)
    rw [entry, show i + 1 + l = i + (l + 1) by omega] at this
    rw [← this, show T + (l + 1) + 1 = T + l + 1 + 1 by omega, outcome, keeper]
    simp [hc]

theorem looping (kept : Fin p → Entry w) (hkept : ∀ b : Fin p, kept b = entry f B (k * b)) (i : Nat) (c : Nat) (hc : c + i = N) :
    outcome f (keeper index hk hN h) (i * k) (look index hk hN h kept (state f index N B c) ⟨c, by omega⟩) = some (roMix f index N B) := by
  induction i generalizing c with
  | zero =>
    obtain rfl : c = N := hc
    rw [Nat.zero_mul, look, outcome, keeper]
    simp [roMix]
  | succ i ih =>
    have hl := Nat.mod_lt (index (state f index N B c) % N) hk
    have h1 := climbing f index hk hN h B kept (state f index N B c) ⟨c, by omega⟩ (by simp only; omega) _ (k * (index (state f index N B c) % N / k)) hl (i * k)
    rw [Nat.div_add_mod] at h1
    have h2 := ih (c + 1) (by omega)
    rw [state] at h2
    rw [h2] at h1
    refine outcome_mono f _ (i * k + index (state f index N B c) % N % k + 1) _ ?_ _ _ ?_
    · rw [Nat.succ_mul]
      omega
    · rw [look, hkept]
      exact h1

theorem filling (i j : Nat) (hi : i < N) (hj : i + j + 1 = N) (kept : Fin p → Entry w) (hkept : ∀ b : Fin p, k * b ≤ i → kept b = entry f B (k * b)) (T : Nat) :
    ∃ kept' : Fin p → Entry w, (∀ b : Fin p, kept' b = entry f B (k * b)) ∧
      outcome f (keeper index hk hN h) (T + j + 1) (.inl (kept, entry f B i, ⟨i, hi⟩)) =
        outcome f (keeper index hk hN h) T (look index hk hN h kept' (entry f B N) 0) := by
  induction j generalizing i kept with
  | zero =>
    refine ⟨kept, fun b => hkept b ?_, ?_⟩
    · have hb : (b.1 + 1) * k ≤ p * k := Nat.mul_le_mul_right _ b.2
      rw [← h, Nat.add_mul, Nat.one_mul, Nat.mul_comm] at hb
      omega
    · have h' : ¬ i + 1 < N := by omega
      rw [outcome, keeper]
      simp only [h', dite_false]
      rw [show f (entry f B i) = entry f B N from (congrArg (entry f B) hj : entry f B (i + 0 + 1) = _)]
  | succ j ih =>
    have h' : i + 1 < N := by omega
    have hdiv : (i + 1) / k < p := Nat.div_lt_of_lt_mul (by rw [Nat.mul_comm, ← h]; exact h')
    obtain ⟨kept', h1, h2⟩ := ih (i + 1) h' (by omega)
      (if (i + 1) % k = 0 then Function.update kept ⟨(i + 1) / k, hdiv⟩ (entry f B (i + 1)) else kept) fun b hb => by
        by_cases hm : (i + 1) % k = 0
        · rw [if_pos hm]
          by_cases hbe : b = ⟨(i + 1) / k, hdiv⟩
          · subst hbe
            rw [Function.update_self, Nat.mul_div_cancel' (Nat.dvd_of_mod_eq_zero hm)]
          · rw [Function.update_of_ne hbe]
            refine hkept b (Nat.lt_succ_iff.1 (lt_of_le_of_ne hb fun he => hbe (Fin.ext ?_)))
            simp only
            rw [← Nat.succ_eq_add_one, ← he, Nat.mul_div_cancel_left _ hk]
        · rw [if_neg hm]
          refine hkept b (Nat.lt_succ_iff.1 (lt_of_le_of_ne hb fun he => hm ?_))
          rw [← Nat.succ_eq_add_one, ← he, Nat.mul_mod_right]
    refine ⟨kept', h1, ?_⟩
    rw [← h2, show T + (j + 1) + 1 = T + j + 1 + 1 by omega, outcome, keeper]
    simp only [h', dite_true]
    rfl

/-- **C113.** It can be done with little memory, in that time up to a constant: the machine that keeps `p` entries of the table of size `N = p * k`,
two more of the same size and two numbers below `N + 1` has the result of scryptROMix after `N + N * k` steps of one evaluation, that is `N + N ^ 2 / p`. -/
theorem C113_keeper : outcome f (keeper index hk hN h) (N * k + N) (.inl (fun _ => B, B, ⟨0, hN⟩)) = some (roMix f index N B) := by
  obtain ⟨kept, h1, h2⟩ := filling f index hk hN h B 0 (N - 1) hN (by omega) (fun _ => B) (fun b hb => by
    rw [Nat.le_zero.1 hb]
    rfl) (N * k)
  rw [show N * k + (N - 1) + 1 = N * k + N by omega] at h2
  exact h2.trans (looping f index hk hN h B kept h1 N 0 (by omega))

end

/-- **C113.** What the machines are after is what the program computes: with scryptBlockMix as the function, the results of the machine that keeps
every `k`-th entry, started with the parts of the key that PBKDF2 makes, give the key that `Scrypt` of the program in the text derives. -/
theorem C113_program {p : Program} (hp : IsProgram Files.lib sources p) (T : Target) (fuel depth : Nat) (hd : 8 ≤ depth) (P : Params)
    (hU : Usable T P) (password salt : List U8) (hP : 8 * password.length < 2 ^ T.bits) (len : Nat) (hok : Possible T salt len)
    (q k : Nat) (hk : 0 < k) (hN : 0 < P.N) (h : P.N = q * k) (B : Nat → Entry (128 * P.r))
    (hB : ∀ i < P.p, (B i).toList = ((Spec.Pbkdf2.pbkdf2HmacSha256 password salt 1 P.size).drop (128 * P.r * i)).take (128 * P.r))
    (result : Nat → Entry (128 * P.r)) (hresult : ∀ i < P.p,
      outcome (blockMix P.r) (keeper (p := q) (fun X => Spec.Scrypt.integerify P.r X.toList) hk hN h) (P.N * k + P.N) (.inl (fun _ => B i, B i, ⟨0, hN⟩)) =
        some (result i)) :
    kdf p T fuel depth P password salt len =
      Spec.Pbkdf2.pbkdf2HmacSha256 password ((List.range P.p).flatMap fun i => (result i).toList) 1 len := by
  rw [C112_program hp T fuel depth hd P hU password salt hP len hok]
  congr 1
  refine List.flatMap_congr fun i hi => ?_
  rw [List.mem_range] at hi
  have h1 := hresult i hi
  rw [C113_keeper, Option.some.injEq] at h1
  rw [← h1, ← hB i hi]
  congr 2
  refine List.Vector.eq _ _ (toList_ofList _ _ (List.Vector.toList_length _))

/-! ### A case -/

/-- A machine with 32 KiB that evaluates the function on everything it has, a thousand strings at a time, and keeps the last value only. -/
def exampleMachine (s : List.Vector U8 32768) : Act 1000 (List.Vector U8 32768) (Entry (128 * 8)) :=
  .eval (fun i => ofList (128 * 8) (s.toList.drop i)) fun y => ofList 32768 (y 999).toList

/-- The parameters of the third test vector in RFC 7914, with a 512th part of the memory: 499712 steps are too few. -/
example (B : Entry (128 * 8)) := C113_octets 8 14 32768 (by decide) (by decide) B 1000 (by decide) exampleMachine (ofList 32768 B.toList) 499712 61 33
  (by decide) (by decide) (by decide) (by decide)

/-- The machine that keeps 32 entries. -/
def exampleKeeper : Memory (128 * 8) 32 512 16384 → Act 1 (Memory (128 * 8) 32 512 16384) (Entry (128 * 8)) :=
  keeper (fun X => Spec.Scrypt.integerify 8 X.toList) (by norm_num) (by norm_num) (by norm_num)

example (B : Entry (128 * 8)) := C113_machine (128 * 8) (fun X => Spec.Scrypt.integerify 8 X.toList) 16384 (by norm_num)
  (integerify_balanced 8 14 (by decide) (by decide)) B 1 le_rfl exampleKeeper (.inl (fun _ => B, B, ⟨0, by norm_num⟩)) 458752 56 8192 36 1024
  (by norm_num) (by norm_num) (by norm_num)

example (B : Entry (128 * 8)) (f : Entry (128 * 8) → Entry (128 * 8)) :
    outcome f exampleKeeper (16384 * 512 + 16384) (.inl (fun _ => B, B, ⟨0, by norm_num⟩)) =
      some (roMix f (fun X => Spec.Scrypt.integerify 8 X.toList) 16384 B) :=
  C113_keeper f _ _ _ _ B

theorem example_usable (T : Target) : Usable T ⟨8, 1024, 16⟩ := by
  have hT : 2 ^ 31 - 1 ≤ T.isizeMax := by rcases T.bits_cases with h | h <;> simp [Target.isizeMax, h]
  have hB := T.two_pow_ge
  exact ⟨by decide, ⟨10, rfl⟩, by decide, by simp [Params.size]; omega, by rcases T with ⟨_ | _, _ | _⟩ <;> decide, by simp [Params.size]; omega, by decide⟩

theorem example_possible (T : Target) : Possible T [3] 64 := by
  have hB := T.two_pow_ge
  have hT : 2 ^ 31 - 1 ≤ T.isizeMax := by rcases T.bits_cases with h | h <;> simp [Target.isizeMax, h]
  exact ⟨by simp; omega, by omega⟩

/-- The parts of what PBKDF2 makes in the second test vector of RFC 7914, but for another password. -/
def examplePart (i : Nat) : Entry (128 * 8) := ofList (128 * 8) (((Spec.Pbkdf2.pbkdf2HmacSha256 [1, 2] [3] 1 16384).drop (128 * 8 * i)).take (128 * 8))

example (T : Target) := C113_program C86_text.1 T 0 8 le_rfl ⟨8, 1024, 16⟩ (example_usable T) [1, 2] [3] (by have := T.two_pow_ge; simp; omega) 64
  (example_possible T) 64 16 (by norm_num) (by norm_num) (by norm_num) examplePart
  (fun i hi => by
    refine toList_ofList _ _ ?_
    rw [List.length_take, List.length_drop, Locked.pbkdf2_length]
    have : i < 16 := hi
    change min (128 * 8) (16384 - 128 * 8 * i) = 128 * 8
    omega)
  (fun i => roMix (blockMix 8) (fun X => Spec.Scrypt.integerify 8 X.toList) 1024 (examplePart i)) fun i _ => C113_keeper _ _ _ _ _ _

end Verif.Props.MemoryHard
