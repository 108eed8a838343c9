import Verif.Spec.Rekey
import Verif.Props.Confidential

/-!
Property C102: how long a key lasts. Two equal ciphertext blocks under one key reveal the xor of two blocks of the plaintexts. With random ivs
the chance of this can be computed exactly for the first blocks of the messages, and bounded for all blocks.
-/

namespace Verif.Props.Rekey
open Verif.Props.CbcSplit Verif.Props.CbcMisuse Verif.Props.Confidential
open Verif Verif.Source Verif.Text Verif.Props.Source Verif.Props.FromText Verif.AesCbc Spec.Cbc Spec.Games

/-- The message is at least one block, and no write of it is within a block of `isize::MAX`. -/
def Message (T : Target) (ops : List Op) : Prop := (∀ op ∈ ops, Possible T op) ∧ 1 ≤ size ops

/-! ### What equal blocks reveal -/

/-- **C102.** Block `i` of what the `Cipher` of the program in the text gives for one message equals block `j` of what it gives for another
(or the same) message under the same key exactly when the xor of the two blocks of the plaintexts is the xor of the two blocks mixed into them:
the ivs, or the ciphertext blocks before. All these are public. -/
theorem C102_reveals {p : Program} (hp : IsProgram Files.lib sources p) (T : Target) (fuel depth : Nat) (hf : 65 ≤ fuel) (hd : 8 ≤ depth)
    (key : List U8) (hk : key.length = 16 ∨ key.length = 24 ∨ key.length = 32) (iv iv' : Block) (ops ops' : List Op)
    (ho : ∀ op ∈ ops, Possible T op) (ho' : ∀ op ∈ ops', Possible T op) (i j : Nat) (hi : i < size ops) (hj : j < size ops') :
    blockAt (cipher p T fuel depth key iv ops) i = blockAt (cipher p T fuel depth key iv' ops') j ↔
      Spec.xorBytes (blockAt (plain [] ops) i) (blockAt (plain [] ops') j) =
        Spec.xorBytes (prevBlock iv.toList (cipher p T fuel depth key iv ops) i)
          (prevBlock iv'.toList (cipher p T fuel depth key iv' ops') j) := by
  have whole (s : List U8) (i : Nat) (hi : i < s.length / 16) : blockAt (s.take (16 * (s.length / 16))) i = blockAt s i := by
    rw [blockAt, blockAt, List.drop_take, List.take_take]
    congr 1
    omega
  rw [cipher_eq hp T fuel depth hf hd key hk iv ops ho, cipher_eq hp T fuel depth hf hd key hk iv' ops' ho',
    ← encrypt_whole key iv.toList, ← encrypt_whole key iv'.toList, ← whole _ i hi, ← whole _ j hj]
  rw [size] at hi hj
  generalize hs : (plain [] ops).take (16 * ((plain [] ops).length / 16)) = s
  generalize hs' : (plain [] ops').take (16 * ((plain [] ops').length / 16)) = s'
  have ls : s.length = 16 * ((plain [] ops).length / 16) := by rw [← hs, List.length_take]; omega
  have ls' : s'.length = 16 * ((plain [] ops').length / 16) := by rw [← hs', List.length_take]; omega
  have hl := encrypt_length key iv.toList s
  have hl' := encrypt_length key iv'.toList s'
  have l1 := blockAt_length s i (by omega) (by omega)
  have l2 := blockAt_length s' j (by omega) (by omega)
  have l3 := prevBlock_length iv.toList (encrypt key iv.toList s) i (by simp) (by omega) (by omega)
  have l4 := prevBlock_length iv'.toList (encrypt key iv'.toList s') j (by simp) (by omega) (by omega)
  rw [blockAt_encrypt _ _ _ _ (by omega) (by omega), blockAt_encrypt _ _ _ _ (by omega) (by omega),
    ← xor_cross _ _ _ _ l1 l3 l2 l4]
  constructor
  · intro h
    have := congrArg (Spec.Aes.decrypt key) h
    rwa [aes_dec_enc _ _ (xor_length _ _ l1 l3), aes_dec_enc _ _ (xor_length _ _ l2 l4)] at this
  · intro h
    rw [h]

/-! ### First blocks -/

/-- The first block of the ciphertext of a message runs through all blocks once as the iv does. -/
theorem first_block {p : Program} (hp : IsProgram Files.lib sources p) (T : Target) (fuel depth : Nat) (hf : 65 ≤ fuel) (hd : 8 ≤ depth)
    (key : List U8) (hk : key.length = 16 ∨ key.length = 24 ∨ key.length = 32) (ops : List Op) (ho : Message T ops) :
    ∃ e : Block ≃ Block, ∀ iv, (cipher p T fuel depth key iv ops).take 16 = (e iv).toList := by
  have hs : 1 ≤ (plain [] ops).length / 16 := ho.2
  have hm : ((plain [] ops).take 16).length = 16 := by rw [List.length_take]; omega
  let m : Block := ⟨(plain [] ops).take 16, hm⟩
  let f : Block → Block := fun iv => aes key (List.Vector.map₂ (· ^^^ ·) m iv)
  have hf' (iv : Block) : (f iv).toList = Spec.Aes.encrypt key (Spec.xorBytes m.toList iv.toList) := aes_toList key _
  have hinj : Function.Injective f := by
    intro a b h
    have h := congrArg (fun x : Block => Spec.Aes.decrypt key x.toList) h
    simp only [hf'] at h
    have lx (c : Block) : (Spec.xorBytes m.toList c.toList).length = 16 := xor_length _ _ (by simp) (by simp)
    rw [aes_dec_enc _ _ (lx a), aes_dec_enc _ _ (lx b)] at h
    apply List.Vector.toList_injective
    refine List.ext_getElem (by simp) fun i h1 h2 => ?_
    have e : (Spec.xorBytes m.toList a.toList)[i]'(by rw [lx]; simpa using h1) = (Spec.xorBytes m.toList b.toList)[i]'(by rw [lx]; simpa using h1) := by
      simp only [h]
    simp only [Spec.xorBytes, List.getElem_zipWith] at e
    exact (BitVec.xor_right_inj _).1 e
  refine ⟨Equiv.ofBijective f (Finite.injective_iff_bijective.1 hinj), fun iv => ?_⟩
  rw [cipher_eq hp T fuel depth hf hd key hk iv ops ho.1]
  have h := blockAt_encrypt key iv.toList ((plain [] ops).take (16 * ((plain [] ops).length / 16))) 0
    (by rw [List.length_take]; omega) (by rw [List.length_take]; omega)
  rw [encrypt_whole, prevBlock, blockAt, blockAt, Nat.mul_zero, List.drop_zero, List.drop_zero, List.take_take,
    Nat.min_eq_left (by omega)] at h
  rw [h]
  exact (hf' iv).symm

theorem first_real {p : Program} (hp : IsProgram Files.lib sources p) (T : Target) (fuel depth : Nat) (hf : 65 ≤ fuel) (hd : 8 ≤ depth)
    (key : List U8) (hk : key.length = 16 ∨ key.length = 24 ∨ key.length = 32) (choose : List (Block × List U8) → List Op)
    (hc : ∀ seen, Message T (choose seen)) (n : Nat) (seen : List (Block × List U8)) (S : Finset Block)
    (hS : ∀ c : Block, c ∈ S ↔ c.toList ∈ seen.map (·.2.take 16)) :
    real (cipher p T fuel depth key) (firstBlocks choose n seen) = 1 - ∏ i ∈ Finset.range n, (1 - ((S.card + i : Nat) : ℚ) / N) := by
  induction n generalizing seen S with
  | zero =>
    rw [Finset.range_zero, Finset.prod_empty, firstBlocks, real]
    norm_num
  | succ n ih =>
    obtain ⟨e, he⟩ := first_block hp T fuel depth hf hd key hk (choose seen) (hc seen)
    rw [firstBlocks, real]
    generalize hQ : ∏ i ∈ Finset.range n, (1 - ((S.card + 1 + i : Nat) : ℚ) / N) = Q
    have step : (fun iv : Block => real (cipher p T fuel depth key)
        (if (cipher p T fuel depth key iv (choose seen)).take 16 ∈ seen.map (·.2.take 16) then .answer true
          else firstBlocks choose n ((iv, cipher p T fuel depth key iv (choose seen)) :: seen))) =
        fun iv => (fun c : Block => (if c ∈ S then (1 : ℚ) else 0) * Q + (1 - Q)) (e iv) := by
      funext iv
      dsimp only
      rw [he iv]
      by_cases h : e iv ∈ S
      · rw [if_pos h, if_pos ((hS _).1 h), real]
        norm_num
      · rw [if_neg h, if_neg fun h' => h ((hS _).2 h'), ih _ (insert (e iv) S), Finset.card_insert_of_notMem h, hQ]
        · ring
        · intro c
          rw [Finset.mem_insert, List.map_cons, List.mem_cons, he iv, hS c]
          refine or_congr ⟨fun h => by rw [h], fun h => List.Vector.toList_injective h⟩ Iff.rfl
    rw [step, avg_equiv e fun c : Block => (if c ∈ S then (1 : ℚ) else 0) * Q + (1 - Q), avg_add, avg_scale, avg_mem_card, avg_const,
      Finset.prod_range_succ']
    have : (∏ i ∈ Finset.range n, (1 - ((S.card + (i + 1) : Nat) : ℚ) / N)) = ∏ i ∈ Finset.range n, (1 - ((S.card + 1 + i : Nat) : ℚ) / N) :=
      Finset.prod_congr rfl fun i _ => by rw [show S.card + (i + 1) = S.card + 1 + i by omega]
    rw [this, hQ, Nat.add_zero]
    generalize (S.card : ℚ) / N = x
    ring

/-- **C102.** With any one key and a fresh random iv for each of `n` messages, the chance that the ciphertexts of two of them begin with the
same block is exactly the chance that `n` random blocks are not all different; whatever the messages are, and even if each of them is chosen
after the earlier ciphertexts have been seen. Then the xor of the first blocks of two plaintexts is known, by `C102_reveals`. -/
theorem C102_chance {p : Program} (hp : IsProgram Files.lib sources p) (T : Target) (fuel depth : Nat) (hf : 65 ≤ fuel) (hd : 8 ≤ depth)
    (key : List U8) (hk : key.length = 16 ∨ key.length = 24 ∨ key.length = 32) (choose : List (Block × List U8) → List Op)
    (hc : ∀ seen, Message T (choose seen)) (n : Nat) :
    real (cipher p T fuel depth key) (firstBlocks choose n []) = someEqual n := by
  rw [first_real hp T fuel depth hf hd key hk choose hc n [] ∅ (by simp), someEqual]
  simp only [Finset.card_empty, Nat.zero_add, N_eq]

/-- The product of the chances to be different, with its first terms. -/
theorem product_bounds (n : Nat) (hn : n ≤ 2 ^ 64) :
    0 ≤ ∏ i ∈ Finset.range n, (1 - (i : ℚ) / 2 ^ 128) ∧
    1 - (n * (n - 1) / 2 ^ 129 : ℚ) ≤ ∏ i ∈ Finset.range n, (1 - (i : ℚ) / 2 ^ 128) ∧
    (∏ i ∈ Finset.range n, (1 - (i : ℚ) / 2 ^ 128)) ≤ 1 - (n * (n - 1) / 2 ^ 129 : ℚ) + (n * (n - 1) / 2 ^ 129 : ℚ) ^ 2 / 2 := by
  induction n with
  | zero => norm_num
  | succ n ih =>
    obtain ⟨h0, h1, h2⟩ := ih (by omega)
    rw [Finset.prod_range_succ]
    generalize (∏ i ∈ Finset.range n, (1 - (i : ℚ) / 2 ^ 128)) = P at *
    have hq : (n : ℚ) ≤ 2 ^ 64 := by exact_mod_cast (show n ≤ 2 ^ 64 by omega)
    have hq0 : (0 : ℚ) ≤ n := Nat.cast_nonneg n
    obtain ⟨x, hx⟩ : ∃ x : ℚ, x = n / 2 ^ 128 := ⟨_, rfl⟩
    obtain ⟨s, hs⟩ : ∃ s : ℚ, s = n * (n - 1) / 2 ^ 129 := ⟨_, rfl⟩
    have e : (((n + 1 : Nat) : ℚ) * (((n + 1 : Nat) : ℚ) - 1) / 2 ^ 129) = s + x := by
      rw [hs, hx]
      push_cast
      ring
    rw [e, ← hx]
    rw [← hs] at h1 h2
    have x0 : 0 ≤ x := by rw [hx]; positivity
    have x1 : x ≤ 1 := by
      rw [hx, div_le_one (by positivity)]
      exact hq.trans (by norm_num)
    have s0 : 0 ≤ s := by
      rw [hs]
      refine div_nonneg ?_ (by positivity)
      rcases Nat.eq_zero_or_pos n with rfl | hn
      · norm_num
      · exact mul_nonneg hq0 (sub_nonneg.2 (by exact_mod_cast hn))
    have p1 : P ≤ 1 := by
      have : s ≤ 1 := by
        rw [hs, div_le_one (by positivity)]
        nlinarith
      nlinarith
    refine ⟨mul_nonneg h0 (by linarith), by nlinarith, ?_⟩
    nlinarith [mul_nonneg x0 s0, mul_nonneg x0 (sq_nonneg s), sq_nonneg x]

/-- **C102.** For `n ≤ 2 ^ 64` messages the chance is `s = n * (n - 1) / 2 ^ 129`, up to less than a half of it. -/
theorem C102_size (n : Nat) (hn : n ≤ 2 ^ 64) :
    (n * (n - 1) / 2 ^ 129 : ℚ) - (n * (n - 1) / 2 ^ 129 : ℚ) ^ 2 / 2 ≤ someEqual n ∧ someEqual n ≤ n * (n - 1) / 2 ^ 129 := by
  obtain ⟨-, h1, h2⟩ := product_bounds n hn
  rw [someEqual]
  constructor <;> linarith

/-- With `2 ^ 64` messages more than every third key has revealed something, with `2 ^ 32` fewer than one in `2 ^ 64`. -/
example : (1 / 3 : ℚ) < someEqual (2 ^ 64) ∧ someEqual (2 ^ 32) < 1 / 2 ^ 64 := by
  have h1 := (C102_size (2 ^ 64) le_rfl).1
  have h2 := (C102_size (2 ^ 32) (by norm_num)).2
  refine ⟨lt_of_lt_of_le ?_ h1, lt_of_le_of_lt h2 ?_⟩ <;> norm_num

/-! ### All blocks -/

theorem blocksOf_append (u : Block) (c : List U8) : blocksOf (u.toList ++ c) = u :: blocksOf c := by
  have hinj : Function.Injective (List.map fun b : Block => b.toList) := List.map_injective_iff.2 List.Vector.toList_injective
  apply hinj
  rw [List.map_cons, blocksOf_toList, blocksOf_toList, blocks_cons _ _ (by simp)]

theorem draw_nodup (m : Nat) (L : List Block) (hL : L.Nodup) (F : List U8 → ℚ) (B : ℚ) (hB : 0 ≤ B) (hF : ∀ c, F c ≤ 1)
    (h : ∀ c, c.length = 16 * m → (L ++ blocksOf c).Nodup → F c ≤ B) : draw m F ≤ collide L.length m + B := by
  induction m generalizing L F with
  | zero =>
    have := h [] rfl (by rw [show blocksOf [] = [] from rfl, List.append_nil]; exact hL)
    rw [draw]
    linarith [collide_nonneg L.length 0]
  | succ m ih =>
    rw [draw, collide_succ]
    have step (u : Block) : (draw m fun rest => F (u.toList ++ rest)) ≤
        (if u ∈ L.toFinset then (1 : ℚ) else 0) + (collide (L.length + 1) m + B) := by
      by_cases hu : u ∈ L
      · rw [if_pos (List.mem_toFinset.2 hu)]
        have := draw_le_one (n := m) (k := fun rest => F (u.toList ++ rest)) fun c => hF _
        linarith [collide_nonneg (L.length + 1) m]
      · rw [if_neg fun h => hu (List.mem_toFinset.1 h), zero_add]
        have := ih (L ++ [u]) (List.nodup_append.2 ⟨hL, by simp, by
            intro a ha b hb
            rw [List.mem_singleton.1 hb]
            rintro rfl
            exact hu ha⟩) (fun rest => F (u.toList ++ rest)) (fun c => hF _) (fun c hc hn => h _ (by simp [hc]; omega) (by
            rw [blocksOf_append]
            rwa [List.append_assoc, List.singleton_append] at hn))
        rwa [List.length_append, List.length_singleton] at this
    refine (avg_mono step).trans ?_
    rw [avg_add, avg_mem_card, avg_const, List.toFinset_card_of_nodup hL, add_assoc]

theorem any_ideal {ok : Op → Prop} (choose : List (Block × List U8) → List Op) (q n : Nat) (seen : List (Block × List U8))
    (hw : (anyBlocks choose q seen).Within ok n) (L : List Block) (hL : L.Nodup) (hs : L.Perm (seen.flatMap fun x => blocksOf x.2)) :
    ideal (anyBlocks choose q seen) ≤ collide L.length n := by
  induction q generalizing n seen L with
  | zero =>
    rw [anyBlocks, ideal, if_neg]
    · exact collide_nonneg _ _
    · rw [decide_eq_true_eq, not_not, ← hs.nodup_iff]
      exact hL
  | succ q ih =>
    obtain ⟨-, hn, hw⟩ := hw
    rw [anyBlocks, ideal]
    have e : collide L.length n = collide L.length (size (choose seen)) + collide (L.length + size (choose seen)) (n - size (choose seen)) := by
      conv_lhs => rw [show n = size (choose seen) + (n - size (choose seen)) from by omega]
      exact collide_add _ _ _
    rw [e]
    have hiv (iv : Block) : (avg fun c : List.Vector Spec.Byte (16 * size (choose seen)) =>
        ideal (anyBlocks choose q ((iv, c.toList) :: seen))) ≤
        collide L.length (size (choose seen)) + collide (L.length + size (choose seen)) (n - size (choose seen)) := by
      rw [← draw_eq (size (choose seen)) fun c => ideal (anyBlocks choose q ((iv, c) :: seen))]
      refine draw_nodup _ L hL _ _ (collide_nonneg _ _) (fun c => ideal_le_one _) fun c hc hnd => ?_
      have := ih (n - size (choose seen)) ((iv, c) :: seen) (hw iv c) (L ++ blocksOf c) hnd (by
        rw [List.flatMap_cons]
        exact List.perm_append_comm.trans (hs.append_left _))
      rwa [List.length_append, blocksOf_length, hc, Nat.mul_div_cancel_left _ (by norm_num)] at this
    exact (avg_mono hiv).trans (by rw [avg_const])

/-- **C102.** As long as the messages under one random key have no more than `n` blocks altogether, the chance that any two blocks of all their
ciphertexts are equal is at most `n * (n - 1) / 2 ^ 128`, and what a distinguisher with `n` questions knows about AES. -/
theorem C102_safe {p : Program} (hp : IsProgram Files.lib sources p) (T : Target) (fuel depth : Nat) (hf : 65 ≤ fuel) (hd : 8 ≤ depth)
    (k : Nat) (hk : k = 16 ∨ k = 24 ∨ k = 32) (choose : List (Block × List U8) → List Op) (q n : Nat)
    (ha : (anyBlocks choose q []).Within (Possible T) n) :
    (avg fun key : List.Vector U8 k => real (cipher p T fuel depth key.toList) (anyBlocks choose q [])) ≤
      (anyBlocks choose q []).reduce.advantage k + n * (n - 1) / 2 ^ 128 := by
  have h1 := C89_random hp T fuel depth hf hd k hk _ n ha
  have h2 := any_ideal choose q n [] ha [] List.nodup_nil (by simp)
  rw [List.length_nil, collide_zero, N_eq] at h2
  have e : (n * (n - 1) / 2 ^ 128 : ℚ) = n * (n - 1) / 2 ^ 129 + (n * (n - 1) / 2) / 2 ^ 128 := by ring
  rw [e]
  have := (abs_le.1 h1).2
  linarith

/-! ### Cases -/

/-- Messages of one block of zeros, or the last ciphertext once more. -/
def echo (seen : List (Block × List U8)) : List Op :=
  match seen with
  | [] => [.write (List.replicate 16 0)]
  | (_, c) :: _ => [.write (c.take 16), .flush]

theorem echo_message (T : Target) : ∀ seen, Message T (echo seen) := by
  have hT : 2 ^ 31 - 1 ≤ T.isizeMax := by rcases T.bits_cases with h | h <;> simp [Target.isizeMax, h]
  intro seen
  match seen with
  | [] =>
    refine ⟨fun op ho b hb => ?_, le_of_eq rfl⟩
    rw [List.mem_singleton.1 ho] at hb
    cases hb
    simp
    omega
  | (iv, c) :: rest =>
    refine ⟨fun op ho b hb => ?_, ?_⟩
    · rcases List.mem_cons.1 ho with rfl | ho
      · cases hb
        have : (c.take 16).length ≤ 16 := by rw [List.length_take]; omega
        omega
      · rw [List.mem_singleton.1 ho] at hb
        cases hb
    · have h := pkcs7_length (c.take 16)
      rw [echo, size, plain, plain, plain, List.nil_append, List.append_nil, h]
      omega

/-- Two messages: the chance is one in `2 ^ 128`, for every key. -/
example (key : List.Vector U8 32) : real (cipher crate ⟨.w64, true⟩ 65 8 key.toList) (firstBlocks echo 2 []) = 1 / 2 ^ 128 := by
  rw [C102_chance C86_text.1 ⟨.w64, true⟩ 65 8 le_rfl le_rfl key.toList (by simp) echo (echo_message _) 2, someEqual, Finset.prod_range_succ,
    Finset.prod_range_one]
  norm_num

/-- `q` messages of one block have `q` blocks. -/
theorem zeros_within (T : Target) (q : Nat) (seen : List (Block × List U8)) :
    (anyBlocks (fun _ => [.write (List.replicate 16 0)]) q seen).Within (Possible T) q := by
  have hT : 2 ^ 31 - 1 ≤ T.isizeMax := by rcases T.bits_cases with h | h <;> simp [Target.isizeMax, h]
  induction q generalizing seen with
  | zero => trivial
  | succ q ih =>
    refine ⟨?_, by rw [size_zeros]; omega, fun iv c => ?_⟩
    · intro op ho b hb
      rw [List.mem_singleton.1 ho] at hb
      cases hb
      rw [List.length_replicate]
      omega
    · rw [size_zeros, Nat.add_sub_cancel]
      exact ih _

example (T : Target) := C102_safe C86_text.1 T 65 8 le_rfl le_rfl 16 (.inl rfl) (fun _ => [.write (List.replicate 16 0)]) 1000 1000 (zeros_within T 1000 [])

/-- The first block of one message and the second of another. -/
example (T : Target) (iv iv' : Block) (x y z : List U8) (hx : x.length = 16) (hy : y.length = 20) (hz : z.length = 12) :=
  have hT : 2 ^ 31 - 1 ≤ T.isizeMax := by rcases T.bits_cases with h | h <;> simp [Target.isizeMax, h]
  C102_reveals C86_text.1 T 65 8 le_rfl le_rfl (List.replicate 16 7) (.inl List.length_replicate) iv iv' [.write x] [.write y, .write z]
    (by intro op ho b hb; simp only [List.mem_singleton] at ho; rw [ho] at hb; cases hb; omega)
    (by intro op ho b hb; simp only [List.mem_cons, List.not_mem_nil, or_false] at ho; rcases ho with rfl | rfl <;> cases hb <;> omega) 0 1
    (by simp [size, plain, hx]) (by simp [size, plain, hy, hz])

end Verif.Props.Rekey
