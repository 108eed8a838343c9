import Verif.Props.Diffusion
import Verif.Proof.Trail
import Mathlib.Data.List.GetD

/-!
C118: how a difference between two blocks goes through `AES::encrypt` cannot be foretold.

C101 says how many lookups of the S-box see a difference. Here it is a question of which difference each of them sees. As the round
keys that `init` makes are not independent, an analysis of this kind gives the `AES` object round keys that are.
-/

set_option linter.constructorNameAsVariable false

namespace Verif.Props.Trail
open Verif Verif.Aes Verif.Source Verif.Trail Verif.Props.SideChannel Verif.Props.ConstantTime Verif.Props.Diffusion Spec.Aes

/-! ### Statements -/

/-- The words that the code keeps for `n` round keys: each is a column of a round key, its first byte on top. -/
def asWords (n : Nat) (k : Nat → State) : List U32 :=
  (List.range (4 * n)).map fun j => column (k (j / 4)) (Fin.ofNat 4 j)
where
  column (s : State) (c : Fin 4) : U32 := (s 0 c).setWidth 32 <<< 24 ||| (s 1 c).setWidth 32 <<< 16 ||| (s 2 c).setWidth 32 <<< 8 ||| (s 3 c).setWidth 32

/-- The round keys of an object for `n` rounds: `k`, and the one that is added at the very end, after all lookups. -/
def andLast {n : Nat} (k : Fin n → State) (last : State) (i : Nat) : State := if h : i < n then k ⟨i, h⟩ else last

/-- The entries of the S-box that `encrypt` looks up, in their order, if the object has these round keys. -/
def encryptingWith (T : Target) (fuel depth : Nat) {n : Nat} (k : Fin n → State) (last : State) (b : Vector U8 16) : List Nat :=
  lookups .aes_AESEncrypt_lookup_sbox (callT T crate fuel depth .aes_AES_encrypt
    [encAES ⟨n, some (asWords (n + 1) (andLast k last))⟩, bytes b.toList]).1

/-- The differences are those that are foretold: in round `i`, `d i` are the differences of the 16 lookups. -/
def LooksForetold {n : Nat} (xs ys : List Nat) (d : Fin n → List Nat) : Prop :=
  ∀ i : Fin n, List.zipWith (· ^^^ ·) (inRounds i 1 xs) (inRounds i 1 ys) = d i

/-- What a state looks like as lookups. -/
def lookedUp (s : State) : List Nat := (store s).map (·.toNat)

/-! ### Lists and words -/

theorem blockIdx_eq (s : Block) : blockIdx s = lookedUp (abs s) := by
  have e : blockIdx s = [s[0][0].toNat, s[0][1].toNat, s[0][2].toNat, s[0][3].toNat, s[1][0].toNat, s[1][1].toNat,
      s[1][2].toNat, s[1][3].toNat, s[2][0].toNat, s[2][1].toNat, s[2][2].toNat, s[2][3].toNat, s[3][0].toNat, s[3][1].toNat,
      s[3][2].toNat, s[3][3].toNat] := by
    rw [blockIdx, toList4 s]
    simp only [List.flatMap_cons, List.flatMap_nil, toList4, List.map_cons, List.map_nil, List.cons_append, List.nil_append]
  rw [e]
  rfl

theorem lookedUp_length (s : State) : (lookedUp s).length = 16 := by simp [lookedUp, store]

theorem one_round (f : Nat → List Nat) (hf : ∀ i, (f i).length = 16) (nr r : Nat) (hr : r < nr) :
    inRounds r 1 ((List.range nr).flatMap f) = f r := by
  rw [inRounds_flatMap f hf _ _ _ (by omega), List.range'_one, List.flatMap_singleton]

theorem wordByte_column (s : State) (c : Fin 4) : wordByte (asWords.column s c) = fun r => s r c := by
  funext r
  revert r
  refine forall_fin4 ?_ ?_ ?_ ?_ <;>
  · refine BitVec.eq_of_getLsbD_eq fun i hi => ?_
    have : i = 0 ∨ i = 1 ∨ i = 2 ∨ i = 3 ∨ i = 4 ∨ i = 5 ∨ i = 6 ∨ i = 7 := by omega
    rcases this with rfl | rfl | rfl | rfl | rfl | rfl | rfl | rfl <;> simp [wordByte, asWords.column]

theorem asWords_length (n : Nat) (k : Nat → State) : (asWords n k).length = 4 * n := by
  rw [asWords, List.length_map, List.length_range]

theorem asWords_get (n : Nat) (k : Nat → State) (j : Nat) (h : j < (asWords n k).length) :
    wordByte (asWords n k)[j] = fun r => k (j / 4) r (Fin.ofNat 4 j) := by
  simp only [asWords, List.getElem_map, List.getElem_range, wordByte_column]

/-! ### The lookups of `encrypt` -/

/-- The states of `encrypt`. -/
theorem after_before (ks : List U32) (nr : Nat) (hk : ks.length = 4 * (nr + 1)) (k : Nat → State)
    (h : ∀ j (hj : j < ks.length), wordByte ks[j] = fun r => k (j / 4) r (Fin.ofNat 4 j)) (b : Vector U8 16) (i : Nat) (hi : i < nr) :
    abs (after (AES.encRound ks) (List.range' 1 (nr - 1)) (add_round_key (to_block b) (ks.take 4)) i) = before k (load b.toList) i := by
  have hw (round : Nat) (s : State) : addRoundKey (fun j r => k (j / 4) r (Fin.ofNat 4 j)) round s = xorState s (k round) := by
    funext r c
    show s r c ^^^ k ((4 * round + c) / 4) r (Fin.ofNat 4 (4 * round + c)) = s r c ^^^ k round r c
    rw [show (4 * round + c.val) / 4 = round by omega,
      show Fin.ofNat 4 (4 * round + c) = c from Fin.ext (by show (4 * round + c.val) % 4 = c.val; omega)]
  induction i with
  | zero =>
    show abs (add_round_key (to_block b) (ks.take 4)) = _
    rw [add_key_ok _ (ks.take 4) (fun j r => k (j / 4) r (Fin.ofNat 4 j)) 0 (by rw [List.length_take]; omega), hw, load_ok]
    · rfl
    · intro c hc
      simp only [Nat.mul_zero, Nat.zero_add, List.getElem_take]
      exact h c (by omega)
  | succ i ih =>
    have hl : i < (List.range' 1 (nr - 1)).length := by rw [List.length_range']; omega
    rw [after_succ _ _ _ _ hl, List.getElem_range']
    obtain ⟨s', hs, as⟩ := encRound_ok ks (fun j r => k (j / 4) r (Fin.ofNat 4 j)) h (1 + 1 * i) (by omega)
      (after (AES.encRound ks) (List.range' 1 (nr - 1)) (add_round_key (to_block b) (ks.take 4)) i)
    rw [hs]
    show abs s' = _
    rw [as, hw, ih (by omega), before, Nat.one_mul, Nat.add_comm 1 i]

theorem encryptingWith_eq (T : Target) (F d n : Nat) (hn : 1 ≤ n) (hn' : n ≤ 14) (k : Fin n → State) (last : State) (b : Vector U8 16) :
    encryptingWith T (F + 65) (d + 5) k last b =
      (List.range n).flatMap fun i => lookedUp (before (andLast k last) (load b.toList) i) := by
  have e := encrypt_lookups T F d n (asWords (n + 1) (andLast k last)) b (asWords_length _ _) hn hn' []
  rw [List.append_nil] at e
  rw [encryptingWith, e, lookups, List.append_nil]
  refine List.flatMap_congr fun i hi => ?_
  rw [blockIdx_eq]
  exact congrArg lookedUp (after_before _ n (asWords_length _ _) _ (asWords_get _ _) b i (List.mem_range.1 hi))

theorem encrypting_eq' (T : Target) (F d : Nat) (key : List U8) (hk : ValidKey key) (b : Vector U8 16) :
    encrypting T (F + 65) (d + 8) key b =
      (List.range (roundsOf key)).flatMap fun i => lookedUp (before (roundKey key) (load b.toList) i) := by
  obtain ⟨a, ea, -, hc, ks, hw, hs⟩ := Aes.init_valid T .new key hk
  have ha : a = ⟨roundsOf key, some ks⟩ := by
    rcases a with ⟨n, ks⟩
    cases hc
    cases hw
    rfl
  subst ha
  have hi : call T crate (F + 65) (d + 8) .aes_AES_init [encAES .new, bytes key] =
      .ok (encRes encAESError encUnit (.ok ()), [encAES ⟨roundsOf key, some ks⟩]) := by rw [src_AES_init T F (d + 5), ea]; rfl
  obtain ⟨h1, h2⟩ := roundsOf_le hk
  have e := encrypt_lookups T F (d + 3) (roundsOf key) ks b hs.1 (by omega) h2 []
  rw [List.append_nil] at e
  rw [encrypting, session_fst (src_AES_new T (F + 65) (d + 7)), history_fst_ok (c := (.aes_AES_init, [bytes key])) hi, history_one,
    List.cons_append, lookups_cons _ _ rfl, no_enc_lookup T _ _ _ rfl, List.cons_append, lookups_cons _ _ rfl,
    no_enc_lookup T _ _ _ rfl, lookups_cons _ _ rfl]
  refine e.trans ?_
  rw [lookups, List.append_nil]
  refine List.flatMap_congr fun i hi => ?_
  rw [blockIdx_eq]
  refine congrArg lookedUp (after_before ks _ hs.1 (roundKey key) ?_ b i (List.mem_range.1 hi))
  intro j hj
  rw [hs.2 j hj]
  funext r
  show keyWord (key.length / 4) key j r = keyWord (key.length / 4) key (4 * (j / 4) + j % 4) r
  rw [Nat.div_add_mod]

theorem lookedUp_xor (s t : State) (r c : Fin 4) :
    BitVec.ofNat 8 ((List.zipWith (· ^^^ ·) (lookedUp s) (lookedUp t)).getD (r + 4 * c) 0) = xorState s t r c := by
  have h : r.val + 4 * c.val < 16 := by omega
  have e (s : State) : (lookedUp s)[r.val + 4 * c.val]'(by rw [lookedUp_length]; exact h) = (s r c).toNat := by
    simp only [lookedUp, store, List.getElem_map, List.getElem_range]
    rw [show Fin.ofNat 4 ((r.val + 4 * c.val) % 4) = r from Fin.ext (by show (r.val + 4 * c.val) % 4 % 4 = r.val; omega),
      show Fin.ofNat 4 ((r.val + 4 * c.val) / 4) = c from Fin.ext (by show (r.val + 4 * c.val) / 4 % 4 = c.val; omega)]
  rw [List.getD_eq_getElem _ _ (by simp [lookedUp_length]; omega), List.getElem_zipWith, e, e, ← BitVec.toNat_xor, BitVec.ofNat_toNat]
  simp [xorState]

/-! ### The claims -/

open Classical in
/-- **C118.** Two bytes differ by `a`, and it is said that their images under the S-box differ by `b`: this is true of at most four
of the 256 bytes. -/
theorem C118_sbox (a b : Spec.Byte) (ha : a ≠ 0) :
    (Finset.univ.filter fun x : Spec.Byte => sbox x ^^^ sbox (x ^^^ a) = b).card ≤ 4 := sbox_differences a b ha

/-- **C118.** The differences of two blocks are foretold, those that go into the S-boxes of `n` rounds and those at the end: with random
round keys the chance is at most 2^-6 for each byte that is to differ before an S-box. -/
theorem C118_trail (n : Nat) (d : Fin (n + 1) → State) (p q : State) : chance n d p q ≤ 1 / 2 ^ (6 * ∑ i : Fin n, active (d i.castSucc)) := by
  have := chance_le n d p q
  rw [show (64 : ℚ) = 2 ^ 6 by norm_num, ← pow_mul] at this
  exact this

/-- **C118.** So it is at most 2^-150 for four rounds, 2^-300 for eight, and so on. -/
theorem C118_rounds (n : Nat) (d : Fin (n + 1) → State) (p q : State) (h : p ≠ q) : chance n d p q ≤ 1 / 2 ^ (150 * (n / 4)) := by
  refine (trail_chance n d p q h).trans (one_div_le_one_div_of_le (by positivity) ?_)
  rw [show (64 : ℚ) = 2 ^ 6 by norm_num, ← pow_mul]
  exact pow_le_pow_right₀ (by norm_num) (by omega)

open Classical in
/-- **C118.** The program, with random round keys: the chance that all differences of its lookups are those that were foretold is at
most 2^-306 with 10 rounds, 2^-336 with 12 and 2^-456 with 14. -/
theorem C118_program (T : Target) (fuel depth : Nat) (hf : 65 ≤ fuel) (hd : 5 ≤ depth) (n : Nat) (last : State) (p q : Vector U8 16)
    (h : p ≠ q) (d : Fin n → List Nat) (bits : Nat) (hn : (n, bits) ∈ [(10, 306), (12, 336), (14, 456)]) :
    (Spec.Games.avg fun k : Fin n → State =>
      if LooksForetold (encryptingWith T fuel depth k last p) (encryptingWith T fuel depth k last q) d then (1 : ℚ) else 0) ≤
      1 / 2 ^ bits := by
  obtain ⟨F, rfl⟩ := Nat.exists_eq_add_of_le' hf
  obtain ⟨e, rfl⟩ := Nat.exists_eq_add_of_le' hd
  obtain ⟨m, rfl⟩ : ∃ m, n = m + 1 := by
    simp at hn
    exact ⟨n - 1, by omega⟩
  have hb : m + 1 ≤ 14 ∧ bits ≤ 6 * (25 * (m / 4) + 5 * (m % 4 / 2) + m % 2) := by
    simp at hn
    omega
  have hne : load p.toList ≠ load q.toList := fun e => h (Vector.toList_inj.1 (by rw [← store_load p, e, store_load]))
  refine le_trans ?_ ((trail_chance m (fun i r c => BitVec.ofNat 8 ((d i).getD (r + 4 * c) 0)) (load p.toList) (load q.toList) hne).trans
    (one_div_le_one_div_of_le (by positivity) ?_))
  · refine Spec.Games.avg_mono fun k => ?_
    by_cases hl : LooksForetold (encryptingWith T (F + 65) (e + 5) k last p) (encryptingWith T (F + 65) (e + 5) k last q) d
    · rw [if_pos hl, if_pos]
      intro i
      have := hl i
      rw [encryptingWith_eq T F e (m + 1) (by omega) hb.1, encryptingWith_eq T F e (m + 1) (by omega) hb.1,
        one_round _ (fun _ => lookedUp_length _) _ _ i.isLt, one_round _ (fun _ => lookedUp_length _) _ _ i.isLt] at this
      have hk (s : State) : before (fun j => k (Fin.ofNat (m + 1) j)) s i = before (andLast k last) s i := by
        refine before_congr _ (fun j hj => ?_) s
        rw [andLast, dif_pos (by omega)]
        congr 1
        exact Fin.ext (Nat.mod_eq_of_lt (by omega))
      rw [hk, hk]
      funext r c
      rw [← lookedUp_xor, this]
    · rw [if_neg hl]
      split <;> norm_num
  · rw [show (64 : ℚ) = 2 ^ 6 by norm_num, ← pow_mul]
    exact pow_le_pow_right₀ (by norm_num) hb.2

/-- **C118.** What `init` makes of a key are round keys in this sense: round by round, `encrypt` looks up the states of the same
rounds with the round keys of the key. -/
theorem C118_keys (T : Target) (fuel depth : Nat) (hf : 65 ≤ fuel) (hd : 8 ≤ depth) (key : List U8) (hk : ValidKey key) (b : Vector U8 16)
    (i : Nat) (hi : i < roundsOf key) :
    inRounds i 1 (encrypting T fuel depth key b) = lookedUp (before (roundKey key) (load b.toList) i) := by
  obtain ⟨F, rfl⟩ := Nat.exists_eq_add_of_le' hf
  obtain ⟨d, rfl⟩ := Nat.exists_eq_add_of_le' hd
  rw [encrypting_eq' T F d key hk, one_round _ (fun _ => lookedUp_length _) _ _ hi]

/-- Four is not too many: this difference does come from four bytes. -/
example : ∃ a b : Spec.Byte, a ≠ 0 ∧ ∃ xs : List Spec.Byte, xs.Nodup ∧ xs.length = 4 ∧ ∀ x ∈ xs, sbox x ^^^ sbox (x ^^^ a) = b :=
  ⟨1, 0x1f, by decide, [0, 1, 0xbc, 0xbd], by decide, rfl, by decide +kernel⟩

/-- Every encryption with random round keys is one that could have been foretold, so these chances are not all zero. -/
example (n : Nat) (p q : State) (k : Fin (n + 1) → State) : ∃ d, Foretold n d p q k ∧ 0 < chance n d p q := by
  classical
  refine ⟨fun i => xorState (before (fun j => k (Fin.ofNat (n + 1) j)) p i) (before (fun j => k (Fin.ofNat (n + 1) j)) q i), fun _ => rfl, ?_⟩
  rw [chance, Spec.Games.avg]
  refine div_pos ?_ (by exact_mod_cast Fintype.card_pos)
  refine Finset.sum_pos' (fun k _ => by split <;> norm_num) ⟨k, Finset.mem_univ _, ?_⟩
  have (P : Prop) [Decidable P] (h : P) : 0 < if P then (1 : ℚ) else 0 := by rw [if_pos h]; norm_num
  exact this _ fun _ => rfl

/-- The hypotheses of C118 meet concrete values: blocks that differ in one bit, AES-256, and a difference foretold for every lookup. -/
example (T : Target) (last : State) := C118_program T 65 5 (by decide) (by decide) 14 last (.replicate 16 0)
  ((Vector.replicate 16 (0 : U8)).set 5 1) (by decide) (fun _ => List.replicate 16 1) 456 (by decide)

example (T : Target) (b : Vector U8 16) := C118_keys T 65 8 (by decide) (by decide) (List.replicate 16 7) (.inl rfl) b 9 (by decide)

end Verif.Props.Trail
