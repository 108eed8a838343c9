import Verif.Props.SideChannel
import Verif.Source.TraceRounds
import Verif.Proof.WideTrail

/-!
C101: how a difference between two blocks spreads through `AES::encrypt` and `AES::decrypt`.

The S-box is the only part of the cipher that is not linear, and it is a table that the code looks into with the bytes of the state:
`lookups` (`Verif/Source/TraceRounds.lean`) collects these bytes from the course of the execution, 16 in each round. Where two executions
look up different entries, the table has something to say about their difference.
-/

set_option linter.constructorNameAsVariable false

namespace Verif.Props.Diffusion
open Verif Verif.Aes Verif.Source Verif.WideTrail Verif.Props.SideChannel Verif.Props.ConstantTime

/-! ### Statements -/

/-- The number of places at which two lists differ. -/
def differ (xs ys : List Nat) : Nat := ((xs.zip ys).filter fun a => a.1 != a.2).length

/-- The entries of the S-box that `encrypt` looks up, in their order, after `AES::new()` and `init(key)`. -/
def encrypting (T : Target) (fuel depth : Nat) (key : List U8) (b : Vector U8 16) : List Nat :=
  lookups .aes_AESEncrypt_lookup_sbox
    (sessionT T fuel depth (.aes_AES_new, []) [(.aes_AES_init, [bytes key]), (.aes_AES_encrypt, [bytes b.toList])]).1

/-- The entries of the inverse S-box that `decrypt` looks up. -/
def decrypting (T : Target) (fuel depth : Nat) (key : List U8) (b : Vector U8 16) : List Nat :=
  lookups .aes_AESDecrypt_lookup_sbox
    (sessionT T fuel depth (.aes_AES_new, []) [(.aes_AES_init, [bytes key]), (.aes_AES_decrypt, [bytes b.toList])]).1

/-- The lookups of the rounds from `r` up to `r + n`, the first round being number 0. -/
def inRounds (r n : Nat) (xs : List Nat) : List Nat := (xs.drop (16 * r)).take (16 * n)

/-- The number of rounds: 10, 12 or 14. -/
def roundsOf (key : List U8) : Nat := key.length / 4 + 6

/-- Differences spread: `xs` and `ys` are lookups of all rounds, at least five of them differ in any two consecutive rounds and at
least 25 in any four; and 55, 75 or 80 of all 160, 192 or 224. -/
structure Spread (key : List U8) (xs ys : List Nat) : Prop where
  length : xs.length = 16 * roundsOf key ∧ ys.length = 16 * roundsOf key
  two : ∀ r, r + 2 ≤ roundsOf key → 5 ≤ differ (inRounds r 2 xs) (inRounds r 2 ys)
  four : ∀ r, r + 4 ≤ roundsOf key → 25 ≤ differ (inRounds r 4 xs) (inRounds r 4 ys)
  all : (key.length = 16 → 55 ≤ differ xs ys) ∧ (key.length = 24 → 75 ≤ differ xs ys) ∧ (key.length = 32 → 80 ≤ differ xs ys)

/-! ### Lists -/

theorem differ_append {a b c d : List Nat} (h : a.length = c.length) : differ (a ++ b) (c ++ d) = differ a c + differ b d := by
  rw [differ, List.zip_append h, List.filter_append, List.length_append]
  rfl

theorem differ_flatMap {m : Nat} (f g : Nat → List Nat) (hf : ∀ i, (f i).length = m) (hg : ∀ i, (g i).length = m) (l : List Nat) :
    differ (l.flatMap f) (l.flatMap g) = (l.map fun i => differ (f i) (g i)).sum := by
  induction l with
  | nil => rfl
  | cons i l ih => rw [List.flatMap_cons, List.flatMap_cons, differ_append (by rw [hf, hg]), ih, List.map_cons, List.sum_cons]

theorem inRounds_flatMap (f : Nat → List Nat) (hf : ∀ i, (f i).length = 16) (nr r n : Nat) (h : r + n ≤ nr) :
    inRounds r n ((List.range nr).flatMap f) = (List.range' r n).flatMap f := by
  have hl (l : List Nat) : (l.flatMap f).length = 16 * l.length := by rw [flatMap_length hf, Nat.mul_comm]
  have e : List.range nr = List.range' 0 r ++ (List.range' r n ++ List.range' (r + n) (nr - (r + n))) := by
    rw [List.range_eq_range', List.range'_append_1, show (0 : Nat) = 0 from rfl]
    have := @List.range'_append_1 0 r (n + (nr - (r + n)))
    rw [Nat.zero_add] at this
    rw [this]
    congr 1
    omega
  rw [e, List.flatMap_append, List.flatMap_append, inRounds, List.drop_left' (by rw [hl, List.length_range']),
    List.take_left' (by rw [hl, List.length_range'])]

theorem blockIdx_length (s : Block) : (blockIdx s).length = 16 := by
  rw [blockIdx, flatMap_length (n := 4) fun c => by simp]
  simp

theorem toList4 {α : Type} (v : Vector α 4) : v.toList = [v[0], v[1], v[2], v[3]] := by
  refine List.ext_getElem (by simp) fun i h _ => ?_
  have : i < 4 := by simpa using h
  match i, this with
  | 0, _ => simp
  | 1, _ => simp
  | 2, _ => simp
  | 3, _ => simp

theorem differ_block (s t : Block) : differ (blockIdx s) (blockIdx t) = weight (diff (abs s) (abs t)) := by
  have hb (a b : U8) : (a.toNat != b.toNat) = (a != b) := by
    refine Bool.eq_iff_iff.2 ?_
    rw [bne_iff_ne, bne_iff_ne, Ne, Ne, BitVec.toNat_inj]
  have e (s : Block) : blockIdx s = [s[0][0].toNat, s[0][1].toNat, s[0][2].toNat, s[0][3].toNat, s[1][0].toNat, s[1][1].toNat,
      s[1][2].toNat, s[1][3].toNat, s[2][0].toNat, s[2][1].toNat, s[2][2].toNat, s[2][3].toNat, s[3][0].toNat, s[3][1].toNat,
      s[3][2].toNat, s[3][3].toNat] := by
    rw [blockIdx, toList4 s]
    simp only [List.flatMap_cons, List.flatMap_nil, toList4, List.map_cons, List.map_nil, List.cons_append, List.nil_append]
  rw [differ, ← List.countP_eq_length_filter, e, e]
  have hd (r c : Fin 4) : diff (Aes.abs s) (Aes.abs t) r c = (s[c][r] != t[c][r]) := rfl
  rw [weight_eq]
  simp only [List.zip_cons_cons, List.zip_nil_right, List.countP_cons, List.countP_nil, hb, Fin.sum_univ_four, hd]
  simp only [Fin.getElem_fin, Fin.val_zero, Fin.val_one, Fin.val_two, show ((3 : Fin 4) : Nat) = 3 from rfl]
  omega

/-! ### Chains of rounds -/

section
variable (σ : Shift) (P : Nat → Pattern) (nr : Nat) (h0 : ∃ r c, P 0 r c = true) (hm : ∀ i, i + 1 < nr → Mixes (σ.pat (P i)) (P (i + 1)))
include h0 hm

theorem chain_alive (i : Nat) (hi : i < nr) : ∃ r c, P i r c = true := by
  induction i with
  | zero => exact h0
  | succ i ih =>
    obtain ⟨c, hc⟩ := pat_nonzero σ (ih (by omega))
    have := (hm i hi).cols
    have hp : 0 < cols (σ.pat (P i)) := Finset.card_pos.2 ⟨c, by simpa using hc⟩
    rw [this] at hp
    obtain ⟨c, hc⟩ := Finset.card_pos.1 hp
    obtain ⟨r, hr⟩ : ∃ r, P (i + 1) r c = true := by simpa using hc
    exact ⟨r, c, hr⟩

theorem chain_two (i : Nat) (hi : i + 2 ≤ nr) : 5 ≤ weight (P i) + weight (P (i + 1)) :=
  two_rounds σ (chain_alive σ P nr h0 hm i (by omega)) (hm i (by omega))

theorem chain_four (i : Nat) (hi : i + 4 ≤ nr) :
    25 ≤ weight (P i) + weight (P (i + 1)) + weight (P (i + 2)) + weight (P (i + 3)) :=
  four_rounds σ (chain_alive σ P nr h0 hm (i + 1) (by omega)) (hm i (by omega)) (hm (i + 1) (by omega)) (hm (i + 2) (by omega))

/-- The lookups of two executions whose states differ in these places. -/
theorem chain_spread (key : List U8) (hn : nr = roundsOf key) (f g : Nat → List Nat) (hf : ∀ i, (f i).length = 16)
    (hg : ∀ i, (g i).length = 16) (hw : ∀ i, i < nr → differ (f i) (g i) = weight (P i)) :
    Spread key ((List.range nr).flatMap f) ((List.range nr).flatMap g) := by
  have hd := differ_flatMap f g hf hg
  have two (i : Nat) (hi : i + 2 ≤ nr) : 5 ≤ differ (f i) (g i) + differ (f (i + 1)) (g (i + 1)) := by
    rw [hw i (by omega), hw (i + 1) (by omega)]
    exact chain_two σ P nr h0 hm i hi
  have four (i : Nat) (hi : i + 4 ≤ nr) : 25 ≤ differ (f i) (g i) + differ (f (i + 1)) (g (i + 1)) +
      differ (f (i + 2)) (g (i + 2)) + differ (f (i + 3)) (g (i + 3)) := by
    rw [hw i (by omega), hw (i + 1) (by omega), hw (i + 2) (by omega), hw (i + 3) (by omega)]
    exact chain_four σ P nr h0 hm i hi
  refine ⟨⟨?_, ?_⟩, fun r hr => ?_, fun r hr => ?_, fun h => ?_, fun h => ?_, fun h => ?_⟩
  · rw [flatMap_length hf, List.length_range, hn, Nat.mul_comm]
  · rw [flatMap_length hg, List.length_range, hn, Nat.mul_comm]
  · rw [inRounds_flatMap f hf _ _ _ (by omega), inRounds_flatMap g hg _ _ _ (by omega), hd]
    have := two r (by omega)
    simp only [List.range'_succ, List.range'_zero, List.map_cons, List.map_nil, List.sum_cons, List.sum_nil]
    omega
  · rw [inRounds_flatMap f hf _ _ _ (by omega), inRounds_flatMap g hg _ _ _ (by omega), hd]
    have := four r (by omega)
    simp only [List.range'_succ, List.range'_zero, List.map_cons, List.map_nil, List.sum_cons, List.sum_nil, Nat.add_assoc,
      Nat.reduceAdd]
    simp only [Nat.add_assoc] at this
    omega
  · have e : nr = 10 := by rw [hn, roundsOf, h]
    subst e
    rw [hd, show List.range 10 = [0, 1, 2, 3, 4, 5, 6, 7, 8, 9] from rfl]
    have h1 := four 0 (by omega)
    have h2 := four 4 (by omega)
    have h3 := two 8 (by omega)
    simp only [List.map_cons, List.map_nil, List.sum_cons, List.sum_nil]
    simp only [Nat.reduceAdd] at h1 h2 h3
    omega
  · have e : nr = 12 := by rw [hn, roundsOf, h]
    subst e
    rw [hd, show List.range 12 = [0, 1, 2, 3, 4, 5, 6, 7, 8, 9, 10, 11] from rfl]
    have h1 := four 0 (by omega)
    have h2 := four 4 (by omega)
    have h3 := four 8 (by omega)
    simp only [List.map_cons, List.map_nil, List.sum_cons, List.sum_nil]
    simp only [Nat.reduceAdd] at h1 h2 h3
    omega
  · have e : nr = 14 := by rw [hn, roundsOf, h]
    subst e
    rw [hd, show List.range 14 = [0, 1, 2, 3, 4, 5, 6, 7, 8, 9, 10, 11, 12, 13] from rfl]
    have h1 := four 0 (by omega)
    have h2 := four 4 (by omega)
    have h3 := four 8 (by omega)
    have h4 := two 12 (by omega)
    simp only [List.map_cons, List.map_nil, List.sum_cons, List.sum_nil]
    simp only [Nat.reduceAdd] at h1 h2 h3 h4
    omega
end

/-! ### The two directions -/

/-- The bytes of a word of the key schedule. -/
def wordAt (ks : List U32) (j : Nat) : Spec.Aes.Word4 := if h : j < ks.length then wordByte ks[j] else fun _ => 0

theorem wordAt_eq (ks : List U32) (j : Nat) (h : j < ks.length) : wordByte ks[j] = wordAt ks j := by rw [wordAt, dif_pos h]

/-- The state after some rounds. -/
def after (step : Nat → Block → M Block) (rs : List Nat) (s : Block) (i : Nat) : Block :=
  (rs.take i).foldl (fun s r => roundOr (step r s) s) s

theorem after_succ (step : Nat → Block → M Block) (rs : List Nat) (s : Block) (i : Nat) (h : i < rs.length) :
    after step rs s (i + 1) = roundOr (step rs[i] (after step rs s i)) (after step rs s i) := by
  rw [after, List.take_succ_eq_append_getElem h, List.foldl_append]
  rfl

theorem enc_mixes (ks : List U32) (nr : Nat) (hk : ks.length = 4 * (nr + 1)) (s t : Block) (i : Nat) (hi : i + 1 < nr) :
    Mixes (shift.pat (diff (Aes.abs (after (AES.encRound ks) (List.range' 1 (nr - 1)) s i))
        (Aes.abs (after (AES.encRound ks) (List.range' 1 (nr - 1)) t i))))
      (diff (Aes.abs (after (AES.encRound ks) (List.range' 1 (nr - 1)) s (i + 1)))
        (Aes.abs (after (AES.encRound ks) (List.range' 1 (nr - 1)) t (i + 1)))) := by
  have hl : i < (List.range' 1 (nr - 1)).length := by rw [List.length_range']; omega
  rw [after_succ _ _ _ _ hl, after_succ _ _ _ _ hl, List.getElem_range']
  obtain ⟨s', hs, as⟩ := encRound_ok ks (wordAt ks) (wordAt_eq ks) (1 + 1 * i) (by omega) (after (AES.encRound ks) (List.range' 1 (nr - 1)) s i)
  obtain ⟨t', ht, at'⟩ := encRound_ok ks (wordAt ks) (wordAt_eq ks) (1 + 1 * i) (by omega) (after (AES.encRound ks) (List.range' 1 (nr - 1)) t i)
  rw [hs, ht]
  show Mixes _ (diff (Aes.abs s') (Aes.abs t'))
  rw [as, at']
  exact diff_round _ _ _ _

theorem dec_mixes (ks : List U32) (nr : Nat) (hk : ks.length = 4 * (nr + 1)) (s t : Block) (i : Nat) (hi : i + 1 < nr) :
    Mixes (unshift.pat (diff (Aes.abs (after (AES.decRound ks) (List.range' 1 (nr - 1)).reverse s i))
        (Aes.abs (after (AES.decRound ks) (List.range' 1 (nr - 1)).reverse t i))))
      (diff (Aes.abs (after (AES.decRound ks) (List.range' 1 (nr - 1)).reverse s (i + 1)))
        (Aes.abs (after (AES.decRound ks) (List.range' 1 (nr - 1)).reverse t (i + 1)))) := by
  have hl : i < (List.range' 1 (nr - 1)).reverse.length := by rw [List.length_reverse, List.length_range']; omega
  rw [after_succ _ _ _ _ hl, after_succ _ _ _ _ hl]
  have hr : 4 * ((List.range' 1 (nr - 1)).reverse[i] + 1) ≤ ks.length := by
    rw [List.getElem_reverse, List.getElem_range', List.length_range']
    omega
  generalize (List.range' 1 (nr - 1)).reverse[i] = r at hr
  obtain ⟨s', hs, as⟩ := decRound_ok ks (wordAt ks) (wordAt_eq ks) r hr (after (AES.decRound ks) (List.range' 1 (nr - 1)).reverse s i)
  obtain ⟨t', ht, at'⟩ := decRound_ok ks (wordAt ks) (wordAt_eq ks) r hr (after (AES.decRound ks) (List.range' 1 (nr - 1)).reverse t i)
  rw [hs, ht]
  show Mixes _ (diff (Aes.abs s') (Aes.abs t'))
  rw [as, at']
  exact diff_invRound _ _ _ _

/-! ### The lookups of a session -/

theorem init_holds (T : Target) (F d : Nat) (key : List U8) (hk : ValidKey key) : ∃ ks : List U32, ks.length = 4 * (roundsOf key + 1) ∧
    call T crate (F + 65) (d + 8) .aes_AES_init [encAES .new, bytes key] =
      .ok (encRes encAESError encUnit (.ok ()), [encAES ⟨roundsOf key, some ks⟩]) := by
  obtain ⟨a, e, -, hc, ws, hw, hs⟩ := Aes.init_valid T .new key hk
  have ha : a = ⟨roundsOf key, some ws⟩ := by
    rcases a with ⟨n, ks⟩
    cases hc
    cases hw
    rfl
  subst ha
  exact ⟨ws, hs.1, by rw [src_AES_init T F (d + 5), e]; rfl⟩

theorem roundsOf_le {key : List U8} (hk : ValidKey key) : 10 ≤ roundsOf key ∧ roundsOf key ≤ 14 := by
  rw [roundsOf]
  rcases hk with h | h | h <;> omega

theorem history_one (T : Target) (fuel depth : Nat) (obj : Val) (c : Fn × List Val) :
    (historyT T fuel depth obj [c]).1 = .call c.1 :: (callT T crate fuel depth c.1 (obj :: c.2)).1 := by
  rw [historyT]
  rcases h : invokeT T fuel depth obj c with ⟨t, e | ⟨obj', v⟩⟩
  · exact (congrArg Prod.fst h).symm
  · rw [show Event.call c.1 :: (callT T crate fuel depth c.1 (obj :: c.2)).1 = t from congrArg Prod.fst h]
    exact List.append_nil t

theorem encrypting_eq (T : Target) (F d : Nat) (key : List U8) (hk : ValidKey key) : ∃ ks : List U32,
    ks.length = 4 * (roundsOf key + 1) ∧ ∀ b, encrypting T (F + 65) (d + 8) key b = (List.range (roundsOf key)).flatMap fun i =>
      blockIdx (after (AES.encRound ks) (List.range' 1 (roundsOf key - 1)) (add_round_key (to_block b) (ks.take 4)) i) := by
  obtain ⟨ks, hl, hi⟩ := init_holds T F d key hk
  obtain ⟨h1, h2⟩ := roundsOf_le hk
  refine ⟨ks, hl, fun b => ?_⟩
  have e := encrypt_lookups T F (d + 3) (roundsOf key) ks b hl (by omega) h2 []
  rw [List.append_nil] at e
  rw [encrypting, session_fst (src_AES_new T (F + 65) (d + 7)), history_fst_ok (c := (.aes_AES_init, [bytes key])) hi, history_one,
    List.cons_append, lookups_cons _ _ rfl, no_enc_lookup T _ _ _ rfl, List.cons_append, lookups_cons _ _ rfl,
    no_enc_lookup T _ _ _ rfl, lookups_cons _ _ rfl]
  refine e.trans ?_
  rw [lookups, List.append_nil]
  rfl

theorem decrypting_eq (T : Target) (F d : Nat) (key : List U8) (hk : ValidKey key) : ∃ ks : List U32,
    ks.length = 4 * (roundsOf key + 1) ∧ ∀ b, decrypting T (F + 65) (d + 8) key b = (List.range (roundsOf key)).flatMap fun i =>
      blockIdx (decShiftRows (after (AES.decRound ks) (List.range' 1 (roundsOf key - 1)).reverse
        (add_round_key (to_block b) (ks.drop (roundsOf key * 4))) i)) := by
  obtain ⟨ks, hl, hi⟩ := init_holds T F d key hk
  obtain ⟨h1, h2⟩ := roundsOf_le hk
  refine ⟨ks, hl, fun b => ?_⟩
  have e := decrypt_lookups T F (d + 3) (roundsOf key) ks b hl (by omega) h2 []
  rw [List.append_nil] at e
  rw [decrypting, session_fst (src_AES_new T (F + 65) (d + 7)), history_fst_ok (c := (.aes_AES_init, [bytes key])) hi, history_one,
    List.cons_append, lookups_cons _ _ rfl, no_dec_lookup T _ _ _ rfl, List.cons_append, lookups_cons _ _ rfl,
    no_dec_lookup T _ _ _ rfl, lookups_cons _ _ rfl]
  refine e.trans ?_
  rw [lookups, List.append_nil]
  rfl

/-- Where the states differ that start from two blocks. -/
theorem diff_start (k : List U32) (hk : 4 ≤ k.length) (p q : Vector U8 16) :
    diff (Aes.abs (add_round_key (to_block p) k)) (Aes.abs (add_round_key (to_block q) k)) =
      diff (Spec.Aes.load p.toList) (Spec.Aes.load q.toList) := by
  have h (c : Nat) (hc : c < 4) : wordByte (k[c]'(by omega)) = wordAt k (4 * 0 + c) := by
    simp only [Nat.mul_zero, Nat.zero_add]
    exact wordAt_eq k c (by omega)
  rw [add_key_ok _ k (wordAt k) 0 hk h, add_key_ok _ k (wordAt k) 0 hk h, diff_key, load_ok, load_ok]

theorem load_ne {p q : Vector U8 16} (h : p ≠ q) : ∃ r c, diff (Spec.Aes.load p.toList) (Spec.Aes.load q.toList) r c = true := by
  rw [diff_exists]
  intro e
  refine h (Vector.toList_inj.1 ?_)
  rw [← store_load p, e, store_load]

/-- Blocks that differ in one byte. -/
def OneByte (p q : Vector U8 16) : Prop := ∃ i : Fin 16, p[i] ≠ q[i] ∧ ∀ j, j ≠ i → p[j] = q[j]

theorem load_one {p q : Vector U8 16} (h : OneByte p q) : weight (diff (Spec.Aes.load p.toList) (Spec.Aes.load q.toList)) = 1 := by
  obtain ⟨i, hi, hj⟩ := h
  have hb (v : Vector U8 16) (k : Nat) (hk : k < 16) : Spec.byteAt v.toList k = v[k] := by simp [Spec.byteAt, hk]
  have hd (r c : Fin 4) : diff (Spec.Aes.load p.toList) (Spec.Aes.load q.toList) r c = true ↔ r.val + 4 * c.val = i.val := by
    rw [diff, bne_iff_ne, Spec.Aes.load, Spec.Aes.load, hb p _ (by omega), hb q _ (by omega)]
    constructor
    · intro hne
      by_contra hn
      exact hne (hj ⟨r + 4 * c, by omega⟩ fun e => hn (congrArg Fin.val e))
    · intro e
      simp only [e]
      exact hi
  rw [weight_eq, Finset.sum_eq_single (⟨i % 4, by omega⟩ : Fin 4), Finset.sum_eq_single (⟨i / 4, by omega⟩ : Fin 4), if_pos]
  · rw [hd]
    show i.val % 4 + 4 * (i.val / 4) = i.val
    omega
  · intro c _ hc
    rw [if_neg]
    rw [hd]
    show ¬ i.val % 4 + 4 * c.val = i.val
    intro e
    refine hc (Fin.ext ?_)
    show c.val = i.val / 4
    omega
  · intro hn
    exact absurd (Finset.mem_univ _) hn
  · intro r _ hr
    refine Finset.sum_eq_zero fun c _ => ?_
    rw [if_neg]
    rw [hd]
    intro e
    refine hr (Fin.ext ?_)
    show r.val = i.val % 4
    omega
  · intro hn
    exact absurd (Finset.mem_univ _) hn

/-! ### The claims -/

/-- **C101.** Two encryptions of different blocks with the same key look into the S-box with different bytes at least 25 times in any
four consecutive rounds, and at least 55, 75 or 80 times in all. -/
theorem C101_encrypt (T : Target) (fuel depth : Nat) (hf : 65 ≤ fuel) (hd : 8 ≤ depth) (key : List U8) (hk : ValidKey key)
    (p q : Vector U8 16) (h : p ≠ q) : Spread key (encrypting T fuel depth key p) (encrypting T fuel depth key q) := by
  obtain ⟨F, rfl⟩ := Nat.exists_eq_add_of_le' hf
  obtain ⟨d, rfl⟩ := Nat.exists_eq_add_of_le' hd
  obtain ⟨ks, hl, e⟩ := encrypting_eq T F d key hk
  obtain ⟨h1, h2⟩ := roundsOf_le hk
  rw [e, e]
  refine chain_spread shift _ _ ?_ (fun i hi => enc_mixes ks (roundsOf key) hl _ _ i hi) key rfl _ _ (fun _ => blockIdx_length _)
    (fun _ => blockIdx_length _) fun i _ => differ_block _ _
  show ∃ r c, diff (Aes.abs (add_round_key (to_block p) (ks.take 4))) (Aes.abs (add_round_key (to_block q) (ks.take 4))) r c = true
  rw [diff_start _ (by rw [List.length_take]; omega)]
  exact load_ne h

/-- **C101.** The same for two decryptions. -/
theorem C101_decrypt (T : Target) (fuel depth : Nat) (hf : 65 ≤ fuel) (hd : 8 ≤ depth) (key : List U8) (hk : ValidKey key)
    (p q : Vector U8 16) (h : p ≠ q) : Spread key (decrypting T fuel depth key p) (decrypting T fuel depth key q) := by
  obtain ⟨F, rfl⟩ := Nat.exists_eq_add_of_le' hf
  obtain ⟨d, rfl⟩ := Nat.exists_eq_add_of_le' hd
  obtain ⟨ks, hl, e⟩ := decrypting_eq T F d key hk
  obtain ⟨h1, h2⟩ := roundsOf_le hk
  rw [e, e]
  refine chain_spread unshift _ _ ?_ (fun i hi => dec_mixes ks (roundsOf key) hl
    (add_round_key (to_block p) (ks.drop (roundsOf key * 4))) (add_round_key (to_block q) (ks.drop (roundsOf key * 4))) i hi) key rfl _ _ (fun _ => blockIdx_length _)
    (fun _ => blockIdx_length _) fun i _ => ?_
  · show ∃ r c, diff (Aes.abs (add_round_key (to_block p) (ks.drop (roundsOf key * 4))))
      (Aes.abs (add_round_key (to_block q) (ks.drop (roundsOf key * 4)))) r c = true
    rw [diff_start _ (by rw [List.length_drop]; omega)]
    exact load_ne h
  · rw [differ_block, shift_dec, shift_dec, diff_unshift, Shift.weight]

/-- Blocks that differ in one bit. -/
example (T : Target) := C101_decrypt T 65 8 (by decide) (by decide) (List.replicate 24 0) (.inr (.inl rfl)) (.replicate 16 0)
  ((Vector.replicate 16 (0 : U8)).set 5 1) (by decide)

/-- **C101.** Blocks that differ in one byte: one lookup differs in the first round, four in the second, all 16 in the third. This is so
for encryption and for decryption. -/
theorem C101_byte (T : Target) (fuel depth : Nat) (hf : 65 ≤ fuel) (hd : 8 ≤ depth) (key : List U8) (hk : ValidKey key)
    (p q : Vector U8 16) (h : OneByte p q) (look : List U8 → Vector U8 16 → List Nat)
    (hl : look = encrypting T fuel depth ∨ look = decrypting T fuel depth) :
    differ (inRounds 0 1 (look key p)) (inRounds 0 1 (look key q)) = 1 ∧
    differ (inRounds 1 1 (look key p)) (inRounds 1 1 (look key q)) = 4 ∧
    differ (inRounds 2 1 (look key p)) (inRounds 2 1 (look key q)) = 16 := by
  obtain ⟨F, rfl⟩ := Nat.exists_eq_add_of_le' hf
  obtain ⟨d, rfl⟩ := Nat.exists_eq_add_of_le' hd
  obtain ⟨h1, h2⟩ := roundsOf_le hk
  have one (f : Nat → List Nat) (hf : ∀ i, (f i).length = 16) (r : Nat) (hr : r < 3) :
      inRounds r 1 ((List.range (roundsOf key)).flatMap f) = f r := by
    rw [inRounds_flatMap f hf _ _ _ (by omega), List.range'_one, List.flatMap_singleton]
  rcases hl with rfl | rfl
  · obtain ⟨ks, hl, e⟩ := encrypting_eq T F d key hk
    rw [e, e]
    simp only [one _ (fun _ => blockIdx_length _) 0 (by omega), one _ (fun _ => blockIdx_length _) 1 (by omega),
      one _ (fun _ => blockIdx_length _) 2 (by omega), differ_block]
    have hw : weight (diff (Aes.abs (add_round_key (to_block p) (ks.take 4))) (Aes.abs (add_round_key (to_block q) (ks.take 4)))) = 1 := by
      rw [diff_start _ (by rw [List.length_take]; omega)]
      exact load_one h
    refine ⟨hw, ?_⟩
    exact one_byte shift (P0 := diff (Aes.abs (add_round_key (to_block p) (ks.take 4)))
      (Aes.abs (add_round_key (to_block q) (ks.take 4)))) hw
      (enc_mixes ks (roundsOf key) hl _ _ 0 (by omega)) (enc_mixes ks (roundsOf key) hl _ _ 1 (by omega))
  · obtain ⟨ks, hl, e⟩ := decrypting_eq T F d key hk
    rw [e, e]
    simp only [one _ (fun _ => blockIdx_length _) 0 (by omega), one _ (fun _ => blockIdx_length _) 1 (by omega),
      one _ (fun _ => blockIdx_length _) 2 (by omega), differ_block, shift_dec, diff_unshift, Shift.weight]
    have hw : weight (diff (Aes.abs (add_round_key (to_block p) (ks.drop (roundsOf key * 4))))
        (Aes.abs (add_round_key (to_block q) (ks.drop (roundsOf key * 4))))) = 1 := by
      rw [diff_start _ (by rw [List.length_drop]; omega)]
      exact load_one h
    refine ⟨hw, ?_⟩
    exact one_byte unshift (P0 := diff (Aes.abs (add_round_key (to_block p) (ks.drop (roundsOf key * 4))))
      (Aes.abs (add_round_key (to_block q) (ks.drop (roundsOf key * 4))))) hw
      (dec_mixes ks (roundsOf key) hl _ _ 0 (by omega)) (dec_mixes ks (roundsOf key) hl _ _ 1 (by omega))

/-- The hypotheses of C101 meet concrete values: blocks that differ in one byte. -/
example : ValidKey (List.replicate 16 0) ∧ OneByte (.replicate 16 0) ((Vector.replicate 16 (0 : U8)).set 5 1) ∧
    55 ≤ differ (encrypting ⟨.w64, true⟩ 65 8 (List.replicate 16 0) (.replicate 16 0))
      (encrypting ⟨.w64, true⟩ 65 8 (List.replicate 16 0) ((Vector.replicate 16 (0 : U8)).set 5 1)) ∧
    differ (inRounds 2 1 (decrypting ⟨.w64, true⟩ 65 8 (List.replicate 16 0) (.replicate 16 0)))
      (inRounds 2 1 (decrypting ⟨.w64, true⟩ 65 8 (List.replicate 16 0) ((Vector.replicate 16 (0 : U8)).set 5 1))) = 16 := by
  have hk : ValidKey (List.replicate 16 0) := .inl rfl
  have h1 : OneByte (.replicate 16 0) ((Vector.replicate 16 (0 : U8)).set 5 1) := ⟨5, by decide, by decide⟩
  exact ⟨hk, h1, (C101_encrypt ⟨.w64, true⟩ 65 8 (by omega) (by omega) _ hk _ _ (by decide)).all.1 rfl,
    (C101_byte ⟨.w64, true⟩ 65 8 (by omega) (by omega) _ hk _ _ h1 _ (.inr rfl)).2.2⟩

end Verif.Props.Diffusion
