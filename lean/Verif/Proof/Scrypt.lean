import Verif.Model.Scrypt
import Verif.Spec.Scrypt
import Verif.Proof.Pbkdf2
import Verif.Proof.Salsa20

/-! scrypt: the model computes RFC 7914. -/

namespace Verif.Scrypt
open Verif Verif.Pbkdf2 Verif.Sha256 Verif.Hmac
open Spec.Scrypt (salsa208 block littleEndian V roMix)

/-- `2 * r` blocks of 64 bytes. -/
def Shape (r : Nat) (b : List Block) : Prop := b.length = 2 * r ∧ ∀ x ∈ b, x.length = 64

theorem block_xor_eq (a b : List U8) : block_xor a b = Spec.xorBytes a b := rfl

theorem xorBytes_length (a b : List U8) : (Spec.xorBytes a b).length = min a.length b.length := by
  simp [Spec.xorBytes]

theorem salsa208_length (x : List U8) : (salsa208 x).length = 64 := Salsa20.core_length _ _

theorem block_flatten (b : List Block) (h : ∀ x ∈ b, x.length = 64) (i : Nat) (hi : i < b.length) :
    block b.flatten i = b[i] := by
  induction b generalizing i with
  | nil => simp at hi
  | cons a b ih =>
    have ha : a.length = 64 := h a (by simp)
    cases i with
    | zero => simp [block, ha]
    | succ i =>
      have := ih (fun x hx => h x (by simp [hx])) i (by simpa using hi)
      rw [List.getElem_cons_succ, ← this, block, block, List.flatten_cons,
        show 64 * (i + 1) = a.length + 64 * i by omega, List.drop_append, List.drop_eq_nil_of_le (by omega),
        List.nil_append, Nat.add_sub_cancel_left]

theorem flatten_length (b : List Block) (h : ∀ x ∈ b, x.length = 64) : b.flatten.length = 64 * b.length := by
  induction b with
  | nil => rfl
  | cons a b ih =>
    rw [List.flatten_cons, List.length_append, ih (fun x hx => h x (by simp [hx])), h a (by simp), List.length_cons]
    omega

/-! ### BlockMix -/

/-- The successive values of `x` in step 2 of `block_mix`. -/
def chain (x : Block) : List Block → List Block
  | [] => []
  | b :: bs => salsa208 (Spec.xorBytes x b) :: chain (salsa208 (Spec.xorBytes x b)) bs

theorem chain_length (x : Block) (bs : List Block) : (chain x bs).length = bs.length := by
  induction bs generalizing x with
  | nil => rfl
  | cons b bs ih => simp [chain, ih]

theorem salsa_ok (t x : List U8) (ht : t.length = 64) (hx : x.length = 64) :
    Salsa20.salsa20 t SALSA_ROUNDS x = .ok (salsa208 t) := by
  rw [Salsa20.salsa20_ok t SALSA_ROUNDS x (by omega) (by omega), List.drop_eq_nil_of_le (by omega), List.append_nil]
  rfl

theorem mixLoop_eq (bs : List Block) (x : Block) (y : List Block) (hb : ∀ b ∈ bs, b.length = 64) (hx : x.length = 64) :
    ∃ x', forEach bs (x, y) (fun b_elem (x, y) => do
      let t := block_xor x b_elem
      let x ← Salsa20.salsa20 t SALSA_ROUNDS x
      return (x, y ++ [x])) = .ok (x', y ++ chain x bs) := by
  induction bs generalizing x y with
  | nil => exact ⟨x, by simp [chain]⟩
  | cons b bs ih =>
    obtain ⟨x', h⟩ := ih (salsa208 (Spec.xorBytes x b)) (y ++ [salsa208 (Spec.xorBytes x b)])
      (fun c hc => hb c (by simp [hc])) (salsa208_length _)
    refine ⟨x', ?_⟩
    rw [forEach_cons]
    simp only [block_xor_eq]
    rw [salsa_ok _ _ (by rw [xorBytes_length, hx, hb b (by simp)]; rfl) hx]
    simp only [ok_bind, pure_eq_ok]
    simp only [block_xor_eq, pure_eq_ok] at h
    rw [h, chain, List.append_assoc, List.singleton_append]

theorem chain_get_succ (x : Block) (bs : List Block) (i : Nat) (hi : i + 1 < bs.length) :
    (chain x bs)[i + 1]'(by rw [chain_length]; exact hi) =
      salsa208 (Spec.xorBytes ((chain x bs)[i]'(by rw [chain_length]; omega)) bs[i + 1]) := by
  induction bs generalizing x i with
  | nil => simp at hi
  | cons b bs ih =>
    cases i with
    | zero =>
      cases bs with
      | nil => simp at hi
      | cons c bs => simp [chain]
    | succ i =>
      simp only [chain, List.getElem_cons_succ]
      exact ih _ i (by simpa using hi)

theorem chain_Y (r : Nat) (hr : 1 ≤ r) (b : List Block) (hb : Shape r b) (i : Nat) (hi : i < b.length) :
    (chain (b[2 * r - 1]'(by have := hb.1; omega)) b)[i]'(by rw [chain_length]; exact hi) = Spec.Scrypt.Y r b.flatten i := by
  induction i with
  | zero =>
    rw [Spec.Scrypt.Y, block_flatten b hb.2 _ (by have := hb.1; omega), block_flatten b hb.2 _ hi]
    cases b with
    | nil => simp at hi
    | cons c bs => simp [chain]
  | succ i ih =>
    rw [chain_get_succ _ _ _ hi, ih (by omega), Spec.Scrypt.Y, block_flatten b hb.2 _ hi]

theorem chain_eq_map (r : Nat) (hr : 1 ≤ r) (b : List Block) (hb : Shape r b) :
    chain (b[2 * r - 1]'(by have := hb.1; omega)) b = (List.range (2 * r)).map (Spec.Scrypt.Y r b.flatten) := by
  apply List.ext_getElem
  · rw [chain_length, List.length_map, List.length_range]; exact hb.1
  · intro i h1 h2
    rw [chain_Y r hr b hb i (by rw [chain_length] at h1; exact h1), List.getElem_map, List.getElem_range]

theorem shuffle_fold (f : Nat → Block) (r : Nat) :
    ((List.range (2 * r)).map f).zipIdx.foldl (fun (bs_head, bs_tail) (y_elem, i) =>
      if i % 2 = 0 then (bs_head ++ [y_elem], bs_tail) else (bs_head, bs_tail ++ [y_elem]))
      (([] : List Block), ([] : List Block)) =
    ((List.range r).map (fun i => f (2 * i)), (List.range r).map (fun i => f (2 * i + 1))) := by
  induction r with
  | zero => rfl
  | succ r ih =>
    rw [show 2 * (r + 1) = 2 * r + 1 + 1 by omega, List.range_succ, List.range_succ, List.append_assoc, List.map_append,
      List.zipIdx_append, List.foldl_append, ih]
    simp [List.range_succ]

theorem shuffle_eq (f : Nat → Block) (r : Nat) :
    Scrypt.shuffle ((List.range (2 * r)).map f) =
      (List.range r).map (fun i => f (2 * i)) ++ (List.range r).map (fun i => f (2 * i + 1)) := by
  rw [Scrypt.shuffle, shuffle_fold]

theorem Y_length (r : Nat) (B : List U8) (i : Nat) : (Spec.Scrypt.Y r B i).length = 64 := by
  cases i <;> exact salsa208_length _

theorem two_mul_lt (T : Target) (r : Nat) (h : 2 * r * T.vecSize ≤ T.isizeMax) : 2 * r < 2 ^ T.bits := by
  have hv : 1 ≤ T.vecSize := by
    rw [Target.vecSize]
    rcases T.bits_cases with h | h <;> rw [h] <;> decide
  have : 2 * r ≤ 2 * r * T.vecSize := Nat.le_mul_of_pos_right _ hv
  have : T.isizeMax < 2 ^ T.bits := by
    rw [Target.isizeMax]
    rcases T.bits_cases with h | h <;> rw [h] <;> decide
  omega

/-- `block_mix` on `2 * r` blocks is `scryptBlockMix`. -/
theorem block_mix_ok (T : Target) (s : Scrypt) (b : List Block) (hr : 1 ≤ s.r) (hb : Shape s.r b)
    (hcap : 2 * s.r * T.vecSize ≤ T.isizeMax) :
    ∃ b', s.block_mix T b = .ok b' ∧ Shape s.r b' ∧ b'.flatten = Spec.Scrypt.blockMix s.r b.flatten := by
  have hlen := hb.1
  have hlt : 2 * s.r - 1 < b.length := by omega
  have hx : (b[2 * s.r - 1]).length = 64 := hb.2 _ (List.getElem_mem _)
  obtain ⟨x', hl⟩ := mixLoop_eq b b[2 * s.r - 1] [] hb.2 hx
  have hcap' : s.r * T.vecSize ≤ T.isizeMax := Nat.le_trans (Nat.mul_le_mul_right _ (by omega)) hcap
  refine ⟨(List.range s.r).map (fun i => Spec.Scrypt.Y s.r b.flatten (2 * i)) ++
    (List.range s.r).map (fun i => Spec.Scrypt.Y s.r b.flatten (2 * i + 1)), ?_, ?_, ?_⟩
  · rw [Scrypt.block_mix, T.mul_ok (two_mul_lt T s.r hcap), ok_bind, T.sub_ok (by omega), ok_bind, idx_ok _ _ hlt, ok_bind,
      ok_bind, T.reserve_ok hcap, ok_bind, Scrypt.mixLoop, hl, ok_bind, List.nil_append, chain_eq_map s.r hr b hb]
    simp only [ok_bind, T.reserve_ok hcap, T.reserve_ok hcap', pure_eq_ok, shuffle_eq]
  · constructor
    · simp; omega
    · intro x hx
      rw [List.mem_append, List.mem_map, List.mem_map] at hx
      rcases hx with ⟨i, _, rfl⟩ | ⟨i, _, rfl⟩ <;> exact Y_length _ _ _
  · rw [Spec.Scrypt.blockMix, List.flatten_append, List.flatMap_def, List.flatMap_def]

/-! ### Integerify -/

theorem littleEndian_append (a b : List U8) :
    littleEndian (a ++ b) = littleEndian a + 256 ^ a.length * littleEndian b := by
  induction a with
  | nil => simp [littleEndian]
  | cons x a ih =>
    simp only [List.cons_append, littleEndian, ih, List.length_cons, Nat.pow_succ]
    rw [Nat.mul_add, Nat.mul_comm (256 ^ a.length) 256, Nat.mul_assoc]
    omega

theorem or_shift_toNat (x : U64) (b : U8) (k : Nat) (hx : x.toNat < 2 ^ k) (hk : k + 8 ≤ 64) :
    (x ||| (b.setWidth 64 <<< k)).toNat = x.toNat + 2 ^ k * b.toNat := by
  have hb := b.isLt
  have h1 : (b.setWidth 64 <<< k).toNat = 2 ^ k * b.toNat := by
    rw [BitVec.toNat_shiftLeft, BitVec.toNat_setWidth, Nat.mod_eq_of_lt (show b.toNat < 2 ^ 64 by omega), Nat.shiftLeft_eq, Nat.mul_comm]
    apply Nat.mod_eq_of_lt
    calc 2 ^ k * b.toNat < 2 ^ k * 2 ^ 8 := Nat.mul_lt_mul_of_pos_left hb (Nat.two_pow_pos k)
      _ = 2 ^ (k + 8) := (Nat.pow_add ..).symm
      _ ≤ 2 ^ 64 := Nat.pow_le_pow_right (by decide) hk
  rw [BitVec.toNat_or, h1, Nat.or_comm, ← Nat.two_pow_add_eq_or_of_lt hx]
  omega

theorem or_bytes_toNat (b0 b1 b2 b3 b4 b5 b6 b7 : U8) :
    (b0.setWidth 64
      ||| (b1.setWidth 64 <<< 8)
      ||| (b2.setWidth 64 <<< 16)
      ||| (b3.setWidth 64 <<< 24)
      ||| (b4.setWidth 64 <<< 32)
      ||| (b5.setWidth 64 <<< 40)
      ||| (b6.setWidth 64 <<< 48)
      ||| (b7.setWidth 64 <<< 56) : U64).toNat = littleEndian [b0, b1, b2, b3, b4, b5, b6, b7] := by
  have l0 := b0.isLt; have l1 := b1.isLt; have l2 := b2.isLt; have l3 := b3.isLt
  have l4 := b4.isLt; have l5 := b5.isLt; have l6 := b6.isLt; have l7 := b7.isLt
  have e0 : (b0.setWidth 64).toNat = b0.toNat := by rw [BitVec.toNat_setWidth, Nat.mod_eq_of_lt (by omega)]
  have e1 := or_shift_toNat (b0.setWidth 64) b1 8 (by omega) (by decide)
  have e2 := or_shift_toNat _ b2 16 (by rw [e1, e0]; omega) (by decide)
  have e3 := or_shift_toNat _ b3 24 (by rw [e2, e1, e0]; omega) (by decide)
  have e4 := or_shift_toNat _ b4 32 (by rw [e3, e2, e1, e0]; omega) (by decide)
  have e5 := or_shift_toNat _ b5 40 (by rw [e4, e3, e2, e1, e0]; omega) (by decide)
  have e6 := or_shift_toNat _ b6 48 (by rw [e5, e4, e3, e2, e1, e0]; omega) (by decide)
  have e7 := or_shift_toNat _ b7 56 (by rw [e6, e5, e4, e3, e2, e1, e0]; omega) (by decide)
  rw [e7, e6, e5, e4, e3, e2, e1, e0]
  simp only [littleEndian]
  omega

theorem integerify_ok (T : Target) (r : Nat) (hr : 1 ≤ r) (x : List Block) (hx : Shape r x) :
    ∃ v, integerify T x = .ok v ∧ v.toNat = littleEndian ((block x.flatten (2 * r - 1)).take 8) := by
  have hlen := hx.1
  have hlt : x.length - 1 < x.length := by omega
  have hl : (x[x.length - 1]).length = 64 := hx.2 _ (List.getElem_mem _)
  have hblk : block x.flatten (2 * r - 1) = x[x.length - 1] := by
    rw [block_flatten x hx.2 _ (by omega)]
    congr 1
    omega
  rw [hblk]
  generalize hlast : x[x.length - 1] = last at *
  rw [integerify, T.sub_ok (by omega), ok_bind, idx_ok _ _ hlt, ok_bind, hlast,
    T.sub_ok (show Salsa20.BLOCK_SIZE ≤ last.length by rw [hl]; decide), ok_bind, sliceFrom,
    if_pos (by omega), ok_bind, hl, show 64 - Salsa20.BLOCK_SIZE = 0 from rfl, List.drop_zero]
  match last, hl with
  | b0 :: b1 :: b2 :: b3 :: b4 :: b5 :: b6 :: b7 :: rest, _ =>
    exact ⟨_, rfl, or_bytes_toNat b0 b1 b2 b3 b4 b5 b6 b7⟩

/-- The low 64 bits of Integerify are enough to index a table whose size is a power of two. -/
theorem littleEndian_mod (l : List U8) (k w : Nat) (hk : k ≤ w) (hw : w ≤ 64) :
    littleEndian (l.take 8) % 2 ^ w % 2 ^ k = littleEndian l % 2 ^ k := by
  rw [Nat.mod_mod_of_dvd _ (Nat.pow_dvd_pow 2 hk)]
  conv => rhs; rw [← List.take_append_drop 8 l, littleEndian_append]
  by_cases h : 8 ≤ l.length
  · rw [List.length_take, Nat.min_eq_left h, show (256 : Nat) ^ 8 = 2 ^ 64 from rfl,
      show (2 : Nat) ^ 64 = 2 ^ k * 2 ^ (64 - k) by rw [← Nat.pow_add]; congr 1; omega, Nat.mul_assoc,
      Nat.add_mul_mod_self_left]
  · rw [List.drop_eq_nil_of_le (by omega)]
    simp [littleEndian]

/-! ### ROMix -/

theorem zip_flatten (a b : List Block) (ha : ∀ x ∈ a, x.length = 64) (hb : ∀ x ∈ b, x.length = 64)
    (hl : a.length = b.length) :
    (List.zipWith (fun x v => block_xor x v) a b).flatten = Spec.xorBytes a.flatten b.flatten := by
  induction a generalizing b with
  | nil => simp [Spec.xorBytes]
  | cons x a ih =>
    cases b with
    | nil => simp at hl
    | cons y b =>
      rw [List.zipWith_cons_cons, List.flatten_cons, List.flatten_cons, List.flatten_cons,
        ih b (fun z hz => ha z (by simp [hz])) (fun z hz => hb z (by simp [hz])) (by simpa using hl)]
      simp only [Spec.xorBytes, block_xor]
      rw [List.zipWith_append]
      rw [ha x (by simp), hb y (by simp)]

theorem zip_shape (r : Nat) (a b : List Block) (ha : Shape r a) (hb : Shape r b) :
    Shape r (List.zipWith (fun x v => block_xor x v) a b) := by
  constructor
  · rw [List.length_zipWith, ha.1, hb.1, Nat.min_self]
  · intro x hx
    obtain ⟨i, hi, rfl⟩ := List.mem_iff_getElem.mp hx
    rw [List.length_zipWith] at hi
    rw [List.getElem_zipWith, block_xor_eq, xorBytes_length, ha.2 _ (List.getElem_mem _), hb.2 _ (List.getElem_mem _)]
    rfl

/-- `ro_mix` never leaves its bounds and keeps the shape, for every `n`; for powers of two it is `scryptROMix`. -/
theorem ro_mix_ok (T : Target) (s : Scrypt) (b : List Block) (hr : 1 ≤ s.r) (hn : 1 ≤ s.n) (hb : Shape s.r b)
    (hcap : 2 * s.r * T.vecSize ≤ T.isizeMax) (hcapn : s.n * T.vecSize ≤ T.isizeMax) :
    ∃ b', s.ro_mix T b = .ok b' ∧ Shape s.r b' ∧
      (∀ k, s.n = 2 ^ k → k ≤ T.bits → b'.flatten = roMix s.r s.n b.flatten) := by
  obtain ⟨⟨v, x⟩, h1, ⟨hvl, hv, hx, hxV⟩⟩ := forRange_inv 0 s.n (by omega) (([] : List (List Block)), b)
    (fun _i (v, x) => do
      let t ← s.block_mix T x
      return (v ++ [x], t))
    (fun i (v, x) => v.length = i ∧ (∀ j (hj : j < v.length), Shape s.r v[j] ∧ v[j].flatten = V s.r b.flatten j) ∧
      Shape s.r x ∧ x.flatten = V s.r b.flatten i)
    ⟨rfl, fun j hj => absurd hj (Nat.not_lt_zero _), hb, rfl⟩
    (by
      rintro i ⟨v, x⟩ _ hi ⟨hvl, hv, hx, hxV⟩
      obtain ⟨x', e, hx', hf⟩ := block_mix_ok T s x hr hx hcap
      refine ⟨(v ++ [x], x'), ?_, ?_, ?_, hx', ?_⟩
      · simp only [e, ok_bind, pure_eq_ok]
      · simp [hvl]
      · intro j hj
        by_cases hj' : j < v.length
        · rw [List.getElem_append_left hj']; exact hv j hj'
        · have : j = v.length := by simp at hj; omega
          subst this
          rw [List.getElem_append_right (Nat.le_refl _)]
          simp only [Nat.sub_self, List.getElem_cons_zero]
          exact ⟨hx, hvl ▸ hxV⟩
      · rw [hf, hxV]; rfl)
  obtain ⟨x', h2, hx', hf⟩ := forRange_inv 0 s.n (by omega) x
    (fun _i x => do
      let j ← T.rem ((← integerify T x).toNat % 2 ^ T.bits) s.n
      let vj ← idx v j
      let t := List.zipWith (fun x_block v_block => block_xor x_block v_block) x vj
      s.block_mix T t)
    (fun i x => Shape s.r x ∧ (∀ k, s.n = 2 ^ k → k ≤ T.bits → x.flatten = Spec.Scrypt.X s.r s.n b.flatten i))
    ⟨hx, fun k _ _ => hxV⟩
    (by
      rintro i x _ hi ⟨hx, hxX⟩
      obtain ⟨val, hv1, hv2⟩ := integerify_ok T s.r hr x hx
      have hj : val.toNat % 2 ^ T.bits % s.n < v.length := by rw [hvl]; exact Nat.mod_lt _ hn
      have hvj := hv _ hj
      obtain ⟨x', e, hx', hf⟩ := block_mix_ok T s _ hr (zip_shape s.r _ _ hx hvj.1) hcap
      refine ⟨x', ?_, hx', ?_⟩
      · simp only [hv1, ok_bind, T.rem_ok (show s.n ≠ 0 by omega), idx_ok _ _ hj, e]
      · intro k hk hkb
        rw [hf, zip_flatten _ _ hx.2 hvj.1.2 (by rw [hx.1, hvj.1.1]), hvj.2, Spec.Scrypt.X, ← hxX k hk hkb]
        have hidx : val.toNat % 2 ^ T.bits % s.n = Spec.Scrypt.integerify s.r x.flatten % s.n := by
          rw [hv2, hk, littleEndian_mod _ _ _ hkb (by rcases T.bits_cases with h | h <;> omega)]
          rfl
        rw [hidx])
  refine ⟨x', ?_, hx', hf⟩
  rw [Scrypt.ro_mix, T.reserve_ok hcapn, ok_bind, h1, ok_bind]
  exact h2

/-! ### derive -/

theorem flatten_const_length (L : List (List U8)) (n : Nat) (h : ∀ x ∈ L, x.length = n) : L.flatten.length = L.length * n := by
  induction L with
  | nil => simp
  | cons x L ih =>
    rw [List.flatten_cons, List.length_append, ih (fun y hy => h y (by simp [hy])), h x (by simp), List.length_cons,
      Nat.succ_mul, Nat.add_comm]

theorem mapM_ok {α β : Type} (l : List α) (f : α → M β) (g : α → β) (h : ∀ x ∈ l, f x = .ok (g x)) :
    l.mapM f = .ok (l.map g) := by
  induction l with
  | nil => rfl
  | cons x l ih =>
    rw [List.mapM_cons, h x (by simp), ok_bind, ih (fun y hy => h y (by simp [hy])), ok_bind, List.map_cons]
    rfl

theorem chunksAux_eq {α : Type} (k n : Nat) (xs : List α) :
    chunksAux k n xs = (List.range k).map fun i => (xs.drop (n * i)).take n := by
  induction k generalizing xs with
  | zero => rfl
  | succ k ih =>
    rw [chunksAux, ih, List.range_succ_eq_map, List.map_cons, List.map_map, Nat.mul_zero, List.drop_zero]
    congr 1
    apply List.map_congr_left
    intro i _
    simp only [Function.comp, List.drop_drop]
    rw [Nat.mul_succ, Nat.add_comm]

theorem chunksExact_ok {α : Type} (xs : List α) (n : Nat) (hn : n ≠ 0) :
    chunksExact xs n = .ok ((List.range (xs.length / n)).map fun i => (xs.drop (n * i)).take n) := by
  rw [chunksExact, if_neg hn, chunksAux_eq]

/-- Cutting a string of `128 * r` bytes into blocks gives the right shape. -/
theorem blocks_shape (r : Nat) (c : List U8) (hc : c.length = 128 * r) :
    Shape r ((List.range (c.length / 64)).map fun i => (c.drop (64 * i)).take 64) := by
  constructor
  · simp [hc]; omega
  · intro x hx
    rw [List.mem_map] at hx
    obtain ⟨i, hi, rfl⟩ := hx
    rw [List.mem_range] at hi
    rw [List.length_take, List.length_drop]
    omega

theorem pieces_flatten (k n : Nat) (c : List U8) (hc : c.length = n * k) :
    ((List.range k).map fun i => (c.drop (n * i)).take n).flatten = c := by
  induction k generalizing c with
  | zero => rw [Nat.mul_zero] at hc; rw [List.length_eq_zero_iff.mp hc]; rfl
  | succ k ih =>
    have hl : (c.drop n).length = n * k := by rw [List.length_drop, hc, Nat.mul_succ]; omega
    rw [List.range_succ_eq_map, List.map_cons, List.flatten_cons, List.map_map, Nat.mul_zero, List.drop_zero]
    conv => rhs; rw [← List.take_append_drop n c, ← ih _ hl]
    congr 2
    apply List.map_congr_left
    intro i _
    simp only [Function.comp, List.drop_drop]
    rw [Nat.mul_succ, Nat.add_comm]

theorem blocks_flatten (r : Nat) (c : List U8) (hc : c.length = 128 * r) :
    ((List.range (c.length / 64)).map fun i => (c.drop (64 * i)).take 64).flatten = c :=
  pieces_flatten _ _ _ (by omega)

theorem isizeMax_lt (T : Target) : T.isizeMax < 2 ^ T.bits := by
  rw [Target.isizeMax]
  rcases T.bits_cases with h | h <;> rw [h] <;> decide

theorem vecSize_pos (T : Target) : 1 ≤ T.vecSize := by
  rw [Target.vecSize]
  rcases T.bits_cases with h | h <;> rw [h] <;> decide

theorem vecSize_le (T : Target) : T.vecSize ≤ 24 := by
  rw [Target.vecSize]
  rcases T.bits_cases with h | h <;> rw [h] <;> decide

/-- PBKDF2 as the code runs it inside `derive`. -/
def kdfOn (T : Target) (P S : List U8) (dkLen : Nat) : List U8 := Spec.Pbkdf2.pbkdf2 (prfOn T) P S 1 dkLen

theorem kdfOn_length (T : Target) (P S : List U8) (n : Nat) : (kdfOn T P S n).length = n := pbkdf2_length ..

theorem kdf_ok (T : Target) (P S out : List U8) (hP : Fits T P.length) (hS : Fits T (68 + S.length))
    (hout : out.length ≤ T.isizeMax) :
    pbkdf2_sha256 T P S PBKDF2_ROUNDS out = .ok (kdfOn T P S out.length) := pbkdf2_eq T P S 1 out hP hS hout

/-- Steps 1 to 3 of `derive`, after the parameter checks, with the two computed sizes as parameters. -/
def steps (T : Target) (s : Scrypt) (P S out : List U8) (size cs : Nat) : M (List U8 × Except ScryptError Unit) := do
  T.reserve 1 size
  let raw_b := List.replicate size (0 : U8)
  let raw_b ← pbkdf2_sha256 T P S PBKDF2_ROUNDS raw_b
  let b ← (← chunksExact raw_b cs).mapM (fun chunk => chunksExact chunk BLOCK_SIZE)
  let b ← b.mapM (fun elem => s.ro_mix T elem)
  let b_salt := b.flatten.flatten
  let out ← pbkdf2_sha256 T P b_salt PBKDF2_ROUNDS out
  return (out, .ok ())

theorem n_pow (n : Nat) (hn : 1 ≤ n) : (n - 1) &&& n = 0 ↔ ∃ k, n = 2 ^ k := by
  rw [Nat.and_comm]
  exact Nat.and_sub_one_eq_zero_iff_isPowerOfTwo (by omega)

theorem derive_steps (T : Target) (s : Scrypt) (P S out : List U8) (hr : 1 ≤ s.r) (hn : ∃ k, s.n = 2 ^ k) (hp : 1 ≤ s.p) :
    s.derive T P S out = (do
      let size ← T.mul (← T.mul (← T.mul s.p 2) BLOCK_SIZE) s.r
      match T.mul (2 * BLOCK_SIZE) s.r with
      | .ok cs => steps T s P S out size cs
      | .error e => do
        T.reserve 1 size
        let _ ← pbkdf2_sha256 T P S PBKDF2_ROUNDS (List.replicate size (0 : U8))
        .error e) := by
  have hn1 : 1 ≤ s.n := by obtain ⟨k, h⟩ := hn; rw [h]; exact Nat.two_pow_pos k
  rw [Scrypt.derive, if_neg (by omega), if_neg (by omega), T.sub_ok hn1, ok_bind,
    if_neg (by rw [Decidable.not_not]; exact (n_pow _ hn1).mpr hn), if_neg (by omega)]
  congr 1; funext a
  congr 1; funext b
  congr 1; funext size
  cases T.mul (2 * BLOCK_SIZE) s.r with
  | ok cs => rfl
  | error e => rfl

theorem lane (T : Target) (r q : Nat) (P S : List U8) (size i : Nat) (hq : q * 128 * r ≤ size) (hi : i < q) :
    ((kdfOn T P S size).drop (128 * r * i)).take (128 * r) =
      ((kdfOn T P S (q * 128 * r)).drop (128 * r * i)).take (128 * r) := by
  have : kdfOn T P S (q * 128 * r) = (kdfOn T P S size).take (q * 128 * r) := pbkdf2_prefix _ _ _ _ _ _ hq
  rw [this, List.drop_take, List.take_take]
  congr 1
  have : 128 * r * i + 128 * r ≤ q * 128 * r := by
    calc 128 * r * i + 128 * r = 128 * r * (i + 1) := by rw [Nat.mul_succ]
      _ ≤ 128 * r * q := Nat.mul_le_mul_left _ hi
      _ = q * 128 * r := by rw [Nat.mul_comm (128 * r) q, Nat.mul_assoc]
  omega

theorem lanes_mul (size r : Nat) : size / (128 * r) * 128 * r ≤ size := by
  rw [Nat.mul_assoc]
  exact Nat.div_mul_le_self _ _

/-- With the chunk size right, the steps mix as many lanes as fit in `size`, and use them as the salt of the last step. -/
theorem steps_lanes (T : Target) (s : Scrypt) (P S out : List U8) (size : Nat) (hr : 1 ≤ s.r) (hn : ∃ k, s.n = 2 ^ k)
    (hsize : size ≤ T.isizeMax) (hcapn : size / (128 * s.r) = 0 ∨ s.n * T.vecSize ≤ T.isizeMax)
    (hP : Fits T P.length) (hS : Fits T (68 + S.length)) :
    ∃ salt, steps T s P S out size (128 * s.r) = (do
        let out ← pbkdf2_sha256 T P salt PBKDF2_ROUNDS out
        return (out, .ok ())) ∧
      salt.length = size / (128 * s.r) * 128 * s.r ∧
      salt = (List.range (size / (128 * s.r))).flatMap fun i => roMix s.r s.n
        (((kdfOn T P S (size / (128 * s.r) * 128 * s.r)).drop (128 * s.r * i)).take (128 * s.r)) := by
  have hn1 : 1 ≤ s.n := by obtain ⟨k, h⟩ := hn; rw [h]; exact Nat.two_pow_pos k
  generalize hq : size / (128 * s.r) = q at *
  have hqs : q * 128 * s.r ≤ size := hq ▸ lanes_mul size s.r
  have hlen : ∀ i < q, (((kdfOn T P S size).drop (128 * s.r * i)).take (128 * s.r)).length = 128 * s.r := by
    intro i hi
    rw [List.length_take, List.length_drop, kdfOn_length]
    have : 128 * s.r * i + 128 * s.r ≤ q * 128 * s.r := by
      calc 128 * s.r * i + 128 * s.r = 128 * s.r * (i + 1) := by rw [Nat.mul_succ]
        _ ≤ 128 * s.r * q := Nat.mul_le_mul_left _ hi
        _ = q * 128 * s.r := by rw [Nat.mul_comm (128 * s.r) q, Nat.mul_assoc]
    omega
  -- every lane is mixed
  have hro : ∀ i < q, ∃ b', s.ro_mix T ((List.range ((((kdfOn T P S size).drop (128 * s.r * i)).take (128 * s.r)).length / 64)).map
      fun j => ((((kdfOn T P S size).drop (128 * s.r * i)).take (128 * s.r)).drop (64 * j)).take 64) = .ok b' ∧
      b'.flatten.length = 128 * s.r ∧
      b'.flatten = roMix s.r s.n (((kdfOn T P S (q * 128 * s.r)).drop (128 * s.r * i)).take (128 * s.r)) := by
    intro i hi
    have hcn : s.n * T.vecSize ≤ T.isizeMax := hcapn.resolve_left (by omega)
    have hcap : 2 * s.r * T.vecSize ≤ T.isizeMax := by
      have h1 : 128 * s.r ≤ q * 128 * s.r := by
        rw [Nat.mul_assoc]; exact Nat.le_mul_of_pos_left _ (by omega)
      have h2 : 2 * s.r * T.vecSize ≤ 2 * s.r * 24 := Nat.mul_le_mul_left _ (vecSize_le T)
      omega
    obtain ⟨b', e, hsh, hf⟩ := ro_mix_ok T s _ hr hn1 (blocks_shape s.r _ (hlen i hi)) hcap hcn
    obtain ⟨k, hk⟩ := hn
    have hkb : k ≤ T.bits := by
      have h1 : s.n ≤ s.n * T.vecSize := Nat.le_mul_of_pos_right _ (vecSize_pos T)
      have h2 := isizeMax_lt T
      have : 2 ^ k < 2 ^ T.bits := by omega
      exact Nat.le_of_lt ((Nat.pow_lt_pow_iff_right (by decide)).mp this)
    refine ⟨b', e, ?_, ?_⟩
    · rw [flatten_length _ hsh.2, hsh.1]; omega
    rw [hf k hk hkb, blocks_flatten s.r _ (hlen i hi), lane T s.r q P S size i hqs hi]
  have hro' : ∀ i, ∃ b', i < q → s.ro_mix T ((List.range ((((kdfOn T P S size).drop (128 * s.r * i)).take (128 * s.r)).length / 64)).map
      fun j => ((((kdfOn T P S size).drop (128 * s.r * i)).take (128 * s.r)).drop (64 * j)).take 64) = .ok b' ∧
      b'.flatten.length = 128 * s.r ∧
      b'.flatten = roMix s.r s.n (((kdfOn T P S (q * 128 * s.r)).drop (128 * s.r * i)).take (128 * s.r)) := by
    intro i
    by_cases hi : i < q
    · obtain ⟨b', h⟩ := hro i hi
      exact ⟨b', fun _ => h⟩
    · exact ⟨[], fun h => absurd h hi⟩
  have ⟨g, hg⟩ := Classical.axiomOfChoice hro'
  rw [steps, T.reserve_ok (by omega), ok_bind]
  simp only []
  rw [kdf_ok T P S _ hP hS (by rw [List.length_replicate]; exact hsize),
    ok_bind, List.length_replicate, chunksExact_ok _ _ (by omega), ok_bind, kdfOn_length, hq]
  rw [mapM_ok _ _ (fun chunk => (List.range (chunk.length / 64)).map fun i => (chunk.drop (64 * i)).take 64)
    (fun x _ => chunksExact_ok x 64 (by decide)), ok_bind, List.map_map]
  have hmix : ((List.range q).map ((fun chunk => (List.range (chunk.length / 64)).map fun i => (chunk.drop (64 * i)).take 64) ∘
      fun i => ((kdfOn T P S size).drop (128 * s.r * i)).take (128 * s.r))).mapM (fun elem => s.ro_mix T elem) =
      .ok ((List.range q).map g) := by
    rw [List.mapM_map]
    exact mapM_ok _ _ _ (fun i hi => (hg i (List.mem_range.mp hi)).1)
  have hsalt : ((List.range q).map g).flatten.flatten = (List.range q).flatMap fun i =>
      roMix s.r s.n (((kdfOn T P S (q * 128 * s.r)).drop (128 * s.r * i)).take (128 * s.r)) := by
    rw [List.flatten_flatten, List.map_map, List.flatMap_def]
    congr 1
    apply List.map_congr_left
    intro i hi
    exact (hg i (List.mem_range.mp hi)).2.2
  have hsl : ((List.range q).map g).flatten.flatten.length = q * 128 * s.r := by
    rw [List.flatten_flatten, List.map_map, flatten_const_length _ (128 * s.r), List.length_map, List.length_range,
      Nat.mul_assoc]
    intro x hx
    rw [List.mem_map] at hx
    obtain ⟨i, hi, rfl⟩ := hx
    exact (hg i (List.mem_range.mp hi)).2.1
  refine ⟨((List.range q).map g).flatten.flatten, ?_, hsl, hsalt⟩
  rw [hmix, ok_bind]

/-- With the chunk size right, the steps compute scrypt with as many lanes as fit in `size`. -/
theorem steps_ok (T : Target) (s : Scrypt) (P S out : List U8) (size : Nat) (hr : 1 ≤ s.r) (hn : ∃ k, s.n = 2 ^ k)
    (hsize : size ≤ T.isizeMax) (hcapn : size / (128 * s.r) = 0 ∨ s.n * T.vecSize ≤ T.isizeMax)
    (hP : Fits T P.length) (hS : Fits T (68 + S.length)) (hS' : Fits T (68 + size / (128 * s.r) * 128 * s.r))
    (hout : out.length ≤ T.isizeMax) :
    steps T s P S out size (128 * s.r) =
      .ok (Spec.Scrypt.scryptWith (kdfOn T) P S s.n s.r (size / (128 * s.r)) out.length, .ok ()) := by
  obtain ⟨salt, h1, h2, h3⟩ := steps_lanes T s P S out size hr hn hsize hcapn hP hS
  rw [h1, kdf_ok T P salt out hP (by rw [h2]; exact hS') hout, ok_bind, h3]
  rfl

/-! ### The size computation -/

theorem mul_unchecked (T : Target) (hc : T.checks = false) (a b : Nat) : T.mul a b = .ok (a * b % 2 ^ T.bits) := by
  rw [Target.mul]
  split
  · rename_i h; rw [Nat.mod_eq_of_lt h]
  · simp [hc]

/-- The value of `self.p * 2 * BLOCK_SIZE * self.r`. -/
theorem size_ok (T : Target) (p r : Nat) (hr : 1 ≤ r) (h : T.checks = false ∨ p * 128 * r < 2 ^ T.bits) :
    (do T.mul (← T.mul (← T.mul p 2) BLOCK_SIZE) r) = .ok (p * 128 * r % 2 ^ T.bits) := by
  by_cases hlt : p * 128 * r < 2 ^ T.bits
  · have h3 : p * 2 * BLOCK_SIZE = p * 128 := by rw [Nat.mul_assoc]; rfl
    have h2 : p * 128 ≤ p * 128 * r := Nat.le_mul_of_pos_right _ hr
    rw [T.mul_ok (by omega), ok_bind, T.mul_ok (by omega), ok_bind, h3, T.mul_ok hlt, Nat.mod_eq_of_lt hlt]
  · have hc := h.resolve_right hlt
    rw [mul_unchecked T hc, ok_bind, mul_unchecked T hc, ok_bind, mul_unchecked T hc]
    congr 1
    rw [Nat.mod_mul_mod, Nat.mul_assoc, Nat.mod_mul_mod, ← Nat.mul_assoc, Nat.mul_assoc p 2]
    rfl

theorem size_err (T : Target) (p r : Nat) (hc : T.checks = true) (h : 2 ^ T.bits ≤ p * 128 * r) :
    (do T.mul (← T.mul (← T.mul p 2) BLOCK_SIZE) r) = .error .overflow := by
  by_cases h1 : p * 2 < 2 ^ T.bits
  · rw [T.mul_ok h1, ok_bind]
    by_cases h2 : p * 2 * BLOCK_SIZE < 2 ^ T.bits
    · have h3 : p * 2 * BLOCK_SIZE = p * 128 := by rw [Nat.mul_assoc]; rfl
      rw [T.mul_ok h2, ok_bind, h3, Target.mul, if_neg (by omega), if_pos hc]
    · rw [Target.mul, if_neg h2, if_pos hc, error_bind]
  · rw [Target.mul, if_neg h1, if_pos hc, error_bind]

/-- `derive` on accepted parameters: scrypt with as many lanes as fit in the (possibly wrapped) size. -/
theorem derive_eq (T : Target) (s : Scrypt) (P S out : List U8) (hr : 1 ≤ s.r) (hn : ∃ k, s.n = 2 ^ k) (hp : 1 ≤ s.p)
    (hwrap : T.checks = false ∨ s.p * 128 * s.r < 2 ^ T.bits) (hcs : 128 * s.r < 2 ^ T.bits)
    (hsize : s.p * 128 * s.r % 2 ^ T.bits ≤ T.isizeMax)
    (hcapn : s.p * 128 * s.r % 2 ^ T.bits / (128 * s.r) = 0 ∨ s.n * T.vecSize ≤ T.isizeMax)
    (hP : Fits T P.length) (hS : Fits T (68 + S.length))
    (hS' : Fits T (68 + s.p * 128 * s.r % 2 ^ T.bits / (128 * s.r) * 128 * s.r))
    (hout : out.length ≤ T.isizeMax) :
    s.derive T P S out =
      .ok (Spec.Scrypt.scryptWith (kdfOn T) P S s.n s.r (s.p * 128 * s.r % 2 ^ T.bits / (128 * s.r)) out.length, .ok ()) := by
  rw [derive_steps T s P S out hr hn hp]
  have h := size_ok T s.p s.r hr hwrap
  simp only [← bind_assoc] at h ⊢
  rw [h, ok_bind, T.mul_ok (show 2 * BLOCK_SIZE * s.r < 2 ^ T.bits from hcs)]
  exact steps_ok T s P S out _ hr hn hsize hcapn hP hS hS' hout

end Verif.Scrypt
