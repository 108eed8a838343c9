import Verif.Props.Confidential
import Verif.Props.Resume
import Verif.Props.Guess

/-!
Property C94: how often a ciphertext that nobody made is accepted.
-/

namespace Verif.Props.Garbage
open Verif Verif.Source Verif.Text Verif.Props.Source Verif.Props.FromText Verif.Props.CbcSplit Verif.Props.Resume Verif.Props.Confidential
open Verif.AesCbc Spec.Cbc Spec.Games

attribute [local irreducible] avg

/-- A `Decipher` of the program `p` gets `iv`, the key, the pieces of a ciphertext and `flush`: is the answer to `flush` an `Ok`? -/
def accepted (p : Program) (T : Target) (fuel depth : Nat) (key : List U8) (iv : Vector U8 16) (pieces : List (List U8)) : Bool :=
  match sessionIn p T fuel depth (.aes_cbc_Decipher_new, [bytes iv.toList])
      ((.aes_cbc_Decipher_init, [bytes key]) :: (pieces.map (fun b => (.aes_cbc_Decipher_write, [bytes b])) ++
        [(.aes_cbc_Decipher_flush, [])])) with
  | .ok vs => match vs.getLast? with
    | some (.enum .Ok _) => true
    | _ => false
  | .error _ => false

/-- A decrypted block ends as `flush` wants it: its last octet `v` is at most 16, and so are the last `v` octets. -/
def Ends (b : List U8) : Prop := ∃ v, b.getLast? = some v ∧ v.toNat ≤ 16 ∧ ∀ x ∈ b.drop (16 - v.toNat), x = v

theorem decrypt_last (key iv pre c : List U8) (hp : pre.length % 16 = 0) (hc : c.length = 16) :
    decrypt key iv (pre ++ c) = decrypt key iv pre ++ Spec.xorBytes (Spec.Aes.decrypt key c) (lastBlock iv pre) := by
  have h := blocks_cons c [] hc
  rw [List.append_nil, blocks_short [] (by simp)] at h
  rw [decrypt_tail, tail_whole pre hp, List.nil_append]
  congr 1
  rw [decrypt, h]
  simp [decBlocks]

theorem accepted_iff {p : Program} (hp : IsProgram Files.lib sources p) (T : Target) (fuel depth : Nat) (hf : 65 ≤ fuel) (hd : 8 ≤ depth)
    (key : List U8) (hk : key.length = 16 ∨ key.length = 24 ∨ key.length = 32) (iv : Vector U8 16) (pieces : List (List U8))
    (hx : ∀ b ∈ pieces, b.length + 16 ≤ T.isizeMax) (pre c : List U8) (hpre : pre.length % 16 = 0) (hc : c.length = 16)
    (hflat : pieces.flatten = pre ++ c) :
    accepted p T fuel depth key iv pieces = true ↔ Ends (Spec.xorBytes (Spec.Aes.decrypt key c) (lastBlock iv.toList pre)) := by
  have hs := C68_source_decipher T fuel depth hf hd iv (messageCalls key pieces) (message_reasonable T key pieces hx)
  have hcalls : (messageCalls key pieces).map decipherCall = (.aes_cbc_Decipher_init, [bytes key]) ::
      (pieces.map (fun b => (.aes_cbc_Decipher_write, [bytes b])) ++ [(.aes_cbc_Decipher_flush, [])]) := by
    simp only [messageCalls, List.map_cons, List.map_append, List.map_map, List.map_nil]
    rfl
  rw [hcalls] at hs
  rw [accepted, C86_text.2 p hp, sessionIn_crate, hs]
  obtain ⟨rs, h1, -, h3⟩ := dec_chunks key pieces iv.toList [] [] (by simp) (by simp) (.inl rfl)
  rw [List.nil_append, List.nil_append, hflat, decrypt_last _ _ _ _ hpre hc] at h1
  have hl : (Spec.xorBytes (Spec.Aes.decrypt key c) (lastBlock iv.toList pre)).length = 16 := by
    simp [Spec.xorBytes, aes_decrypt_length, Guess.lastBlock_length _ _ iv.length_toList]
  generalize hB : Spec.xorBytes (Spec.Aes.decrypt key c) (lastBlock iv.toList pre) = B at h1 hl ⊢
  have h16 : last16 (decrypt key iv.toList pre ++ B) = B := by
    rw [last16, List.length_append, hl, Nat.add_sub_cancel, List.drop_left]
  rw [h16] at h1
  have hne : B.getLast? = some (B.getLast (by intro h; rw [h] at hl; simp at hl)) := List.getLast?_eq_getLast_of_ne_nil _
  generalize B.getLast _ = v at hne
  have hans : (decipherAnswers (messageCalls key pieces) ⟨none, iv.toList, [], []⟩).getLast? =
      some (decipherVal .flush (if v.toNat ≤ 16 ∧ ∀ b ∈ B.drop (16 - v.toNat), b = v then .ok (B.take (16 - v.toNat))
        else .error .invalidPadding)) := by
    rw [decipherAnswers, messageCalls, Dec.run]
    have hi : (⟨none, iv.toList, [], []⟩ : Dec).step (.init key) = (⟨some key, iv.toList, [], []⟩, .ok []) := by
      rw [Dec.step, if_pos (show validKey key from hk)]
    rw [hi]
    simp only [Prod.map, id]
    rw [dec_run_append, h1]
    simp only [Dec.run, Dec.step, hne, Prod.map, id]
    rw [List.zipWith_cons_cons, List.zipWith_append (by simp [h3]), List.getLast?_cons, List.getLast?_append]
    split <;> rfl
  simp only [hans]
  by_cases h : v.toNat ≤ 16 ∧ ∀ b ∈ B.drop (16 - v.toNat), b = v
  · rw [if_pos h]
    exact iff_of_true rfl ⟨v, hne, h⟩
  · rw [if_neg h]
    refine ⟨fun h' => (by cases h'), fun ⟨w, h1, h2⟩ => ?_⟩
    rw [hne] at h1
    cases h1
    exact absurd h2 h

/-- The decryption of a block and the chaining are a permutation of the blocks. -/
theorem avg_decrypt (key prev : List U8) (hprev : prev.length = 16) (f : List U8 → ℚ) :
    (avg fun c : Block => f (Spec.xorBytes (Spec.Aes.decrypt key c.toList) prev)) = avg fun b : Block => f b.toList := by
  let e : Block ≃ Block :=
    { toFun := fun c => ⟨Spec.xorBytes (Spec.Aes.decrypt key c.toList) prev, by simp [Spec.xorBytes, aes_decrypt_length, hprev]⟩
      invFun := fun b => ⟨Spec.Aes.encrypt key (Spec.xorBytes b.toList prev), aes_encrypt_length _ _⟩
      left_inv := fun c => by
        apply List.Vector.toList_injective
        show Spec.Aes.encrypt key (Spec.xorBytes (Spec.xorBytes (Spec.Aes.decrypt key c.toList) prev) prev) = c.toList
        rw [xor_cancel _ _ (aes_decrypt_length _ _) hprev, aes_enc_dec _ _ c.toList_length]
      right_inv := fun b => by
        apply List.Vector.toList_injective
        show Spec.xorBytes (Spec.Aes.decrypt key (Spec.Aes.encrypt key (Spec.xorBytes b.toList prev))) prev = b.toList
        rw [aes_dec_enc _ _ (by simp [Spec.xorBytes, hprev]), xor_cancel _ _ b.toList_length hprev] }
  exact avg_equiv e fun b => f b.toList

theorem card_vector_byte (n : Nat) : (Fintype.card (List.Vector U8 n) : ℚ) = 256 ^ n := by
  rw [card_vector, show Fintype.card U8 = 256 from (Fintype.ofEquiv_card _).trans (Fintype.card_fin _)]
  push_cast
  rfl

/-- The chance that random octets are given ones. -/
theorem avg_eq (n : Nat) (w : List U8) (hw : w.length = n) : (avg fun d : List.Vector U8 n => if d.toList = w then (1 : ℚ) else 0) = 1 / 256 ^ n := by
  obtain ⟨x, hx⟩ : ∃ x : List.Vector U8 n, x.toList = w := ⟨⟨w, hw⟩, rfl⟩
  have e : (fun d : List.Vector U8 n => if d.toList = w then (1 : ℚ) else 0) =
      fun d => if d ∈ ({x} : Finset (List.Vector U8 n)) then (1 : ℚ) else 0 := by
    funext d
    have h : d ∈ ({x} : Finset (List.Vector U8 n)) ↔ d.toList = w := by
      rw [Finset.mem_singleton, ← hx]
      exact ⟨fun h => by rw [h], fun h => List.Vector.toList_injective h⟩
    simp only [h]
  rw [e, avg_mem_card, card_vector_byte, Finset.card_singleton]
  norm_num

/-- The chance that a random block ends with given octets. -/
theorem avg_drop (n : Nat) (hn : n ≤ 16) (w : List U8) (hw : w.length = n) :
    (avg fun b : Block => if b.toList.drop (16 - n) = w then (1 : ℚ) else 0) = 1 / 256 ^ n := by
  have h := avg_vector_append (16 - n) n fun s => if s.drop (16 - n) = w then (1 : ℚ) else 0
  rw [show 16 - n + n = 16 by omega] at h
  rw [h]
  have e : (fun c : List.Vector U8 (16 - n) => avg fun d : List.Vector U8 n => if (c.toList ++ d.toList).drop (16 - n) = w then (1 : ℚ) else 0) =
      fun _ => 1 / 256 ^ n := by
    funext c
    rw [← avg_eq n w hw]
    refine congrArg avg (funext fun d => ?_)
    rw [List.drop_left' c.toList_length]
  exact (congrArg avg e).trans (avg_const _)

theorem all_iff (l : List U8) (v : U8) (n : Nat) (h : l.length = n) : (∀ x ∈ l, x = v) ↔ l = List.replicate n v := by
  rw [List.eq_replicate_iff]
  exact ⟨fun h' => ⟨h, h'⟩, fun h' => h'.2⟩

theorem getLast_drop (l : List U8) (n : Nat) (hn : 1 ≤ n) (v : U8)
    (h : l.drop (16 - n) = List.replicate n v) : l.getLast? = some v := by
  have h1 : l = l.take (16 - n) ++ l.drop (16 - n) := (List.take_append_drop _ _).symm
  rw [h] at h1
  rw [h1, List.getLast?_append, List.getLast?_replicate, if_neg (by omega)]
  rfl

/-- The octet with the number `n`. -/
abbrev oct (n : Nat) : U8 := BitVec.ofNat 8 n

theorem toNat_oct {n : Nat} (h : n ≤ 16) : (oct n).toNat = n := by rw [BitVec.toNat_ofNat]; omega

/-- A block is properly padded with `n` octets. -/
theorem padded_iff (b : List U8) (hb : b.length = 16) :
    (∃ v, b.getLast? = some v ∧ 1 ≤ v.toNat ∧ v.toNat ≤ 16 ∧ ∀ x ∈ b.drop (16 - v.toNat), x = v) ↔
      ∃ n ∈ Finset.Icc 1 16, b.drop (16 - n) = List.replicate n (oct n) := by
  constructor
  · rintro ⟨v, h1, h2, h3, h4⟩
    refine ⟨v.toNat, Finset.mem_Icc.2 ⟨h2, h3⟩, ?_⟩
    rw [oct, BitVec.ofNat_toNat, BitVec.setWidth_eq]
    exact (all_iff _ _ _ (by rw [List.length_drop]; omega)).1 h4
  · rintro ⟨n, hn, h⟩
    obtain ⟨h1, h2⟩ := Finset.mem_Icc.1 hn
    refine ⟨oct n, getLast_drop b n h1 _ h, ?_⟩
    rw [toNat_oct h2]
    exact ⟨h1, h2, (all_iff _ _ n (by rw [List.length_drop]; omega)).2 h⟩

theorem ite_exists (b : List U8) [Decidable (∃ n ∈ Finset.Icc 1 16, b.drop (16 - n) = List.replicate n (oct n))] :
    (if ∃ n ∈ Finset.Icc 1 16, b.drop (16 - n) = List.replicate n (oct n) then (1 : ℚ) else 0) =
      ∑ n ∈ Finset.Icc 1 16, if b.drop (16 - n) = List.replicate n (oct n) then (1 : ℚ) else 0 := by
  split
  · rename_i h
    obtain ⟨n, hn, h⟩ := h
    rw [Finset.sum_eq_single n, if_pos h]
    · intro m hm hne
      rw [if_neg]
      intro h'
      obtain ⟨h1, h2⟩ := Finset.mem_Icc.1 hn
      obtain ⟨h3, h4⟩ := Finset.mem_Icc.1 hm
      have e := (getLast_drop b n h1 _ h).symm.trans (getLast_drop b m h3 _ h')
      have := congrArg BitVec.toNat (Option.some.inj e)
      rw [toNat_oct h2, toNat_oct h4] at this
      omega
    · intro h'
      exact absurd hn h'
  · rename_i h
    refine (Finset.sum_eq_zero fun n hn => if_neg fun h' => h ⟨n, hn, h'⟩).symm

/-- The chance that a random block is properly padded. -/
theorem avg_padded : (avg fun b : Block => open Classical in
    if ∃ v, b.toList.getLast? = some v ∧ 1 ≤ v.toNat ∧ v.toNat ≤ 16 ∧ ∀ x ∈ b.toList.drop (16 - v.toNat), x = v then (1 : ℚ) else 0) =
      ∑ n ∈ Finset.Icc 1 16, 1 / 256 ^ n := by
  classical
  have e : (fun b : Block => if ∃ v, b.toList.getLast? = some v ∧ 1 ≤ v.toNat ∧ v.toNat ≤ 16 ∧ ∀ x ∈ b.toList.drop (16 - v.toNat), x = v
      then (1 : ℚ) else 0) = fun b => ∑ n ∈ Finset.Icc 1 16, if b.toList.drop (16 - n) = List.replicate n (oct n) then (1 : ℚ) else 0 := by
    funext b
    rw [← ite_exists b.toList]
    simp only [padded_iff b.toList b.toList_length]
  rw [e, avg_sum]
  refine Finset.sum_congr rfl fun n hn => ?_
  obtain ⟨h1, h2⟩ := Finset.mem_Icc.1 hn
  exact avg_drop n h2 _ (by simp)

/-- The chance that a random block ends as `flush` wants it. -/
theorem avg_ends : (avg fun b : Block => open Classical in if Ends b.toList then (1 : ℚ) else 0) = 1 / 256 + ∑ n ∈ Finset.Icc 1 16, 1 / 256 ^ n := by
  classical
  have h0 (b : Block) : b.toList.getLast? = some 0 ↔ b.toList.drop 15 = [0] := by
    have hl := b.toList_length
    constructor
    · intro h
      obtain ⟨l, e⟩ := List.getLast?_eq_some_iff.1 h
      rw [e] at hl ⊢
      rw [List.length_append] at hl
      exact List.drop_left' (by simpa using hl)
    · intro h
      exact getLast_drop _ 1 le_rfl 0 h
  have e : (fun b : Block => if Ends b.toList then (1 : ℚ) else 0) = fun b => (if b.toList.drop 15 = [0] then (1 : ℚ) else 0) +
      if ∃ v, b.toList.getLast? = some v ∧ 1 ≤ v.toNat ∧ v.toNat ≤ 16 ∧ ∀ x ∈ b.toList.drop (16 - v.toNat), x = v then (1 : ℚ) else 0 := by
    funext b
    by_cases hz : b.toList.getLast? = some 0
    · rw [if_pos, if_pos ((h0 b).1 hz), if_neg, add_zero]
      · rintro ⟨v, h1, h2, -⟩
        rw [hz] at h1
        cases h1
        exact absurd h2 (by decide)
      · exact ⟨0, hz, by decide, by
          intro x hx
          rw [show 16 - (0 : U8).toNat = 16 from rfl, List.drop_of_length_le b.toList_length.le] at hx
          cases hx⟩
    · rw [if_neg (fun h => hz ((h0 b).2 h)), zero_add]
      congr 1
      refine propext ⟨fun ⟨v, h1, h2, h3⟩ => ⟨v, h1, ?_, h2, h3⟩, fun ⟨v, h1, _, h2, h3⟩ => ⟨v, h1, h2, h3⟩⟩
      refine Nat.one_le_iff_ne_zero.2 fun hv => ?_
      have h0 : v = 0 := BitVec.eq_of_toNat_eq hv
      exact hz (h0 ▸ h1)
  rw [e, avg_add]
  congr 1
  · have := avg_drop 1 (by decide) [0] rfl
    rw [pow_one] at this
    exact this
  · convert avg_padded

/-- **C94.** Somebody who knows no key hands a `Decipher` of the program in the text any number of whole blocks and then a random block, cut
in any way, and calls `flush`. The padding is accepted with probability exactly `1/256 + (1/256 + 1/256^2 + ... + 1/256^16)`, whatever the
key, the iv and the other blocks are. -/
theorem C94_accepted {p : Program} (hp : IsProgram Files.lib sources p) (T : Target) (fuel depth : Nat) (hf : 65 ≤ fuel) (hd : 8 ≤ depth)
    (key : List U8) (hk : key.length = 16 ∨ key.length = 24 ∨ key.length = 32) (iv : Vector U8 16)
    (pre : List U8) (hpre : pre.length % 16 = 0) (cut : Block → List (List U8)) (hcut : ∀ c, (cut c).flatten = pre ++ c.toList)
    (hx : ∀ c, ∀ b ∈ cut c, b.length + 16 ≤ T.isizeMax) :
    (avg fun c : Block => if accepted p T fuel depth key iv (cut c) then (1 : ℚ) else 0) = 1 / 256 + ∑ n ∈ Finset.Icc 1 16, 1 / 256 ^ n := by
  classical
  have e : (fun c : Block => if accepted p T fuel depth key iv (cut c) then (1 : ℚ) else 0) = fun c =>
      if Ends (Spec.xorBytes (Spec.Aes.decrypt key c.toList) (lastBlock iv.toList pre)) then (1 : ℚ) else 0 := by
    funext c
    simp only [accepted_iff hp T fuel depth hf hd key hk iv (cut c) (hx c) pre c.toList hpre c.toList_length (hcut c)]
  rw [e, avg_decrypt key (lastBlock iv.toList pre) (Guess.lastBlock_length _ _ iv.length_toList) fun b => if Ends b then (1 : ℚ) else 0]
  convert avg_ends

/-- **C94.** The probability that such a ciphertext is one of a padded message, as PKCS#7 says, is only
`1/256 + 1/256^2 + ... + 1/256^16`. The difference of `1/256` is the padding octet 0, which `flush` accepts (C33). -/
theorem C94_padded (key : List U8) (iv pre : List U8) (hiv : iv.length = 16) (hpre : pre.length % 16 = 0) :
    (avg fun c : Block => open Classical in if ∃ m, decrypt key iv (pre ++ c.toList) = pkcs7 16 m then (1 : ℚ) else 0) =
      ∑ n ∈ Finset.Icc 1 16, 1 / 256 ^ n := by
  classical
  have hl := Guess.lastBlock_length iv pre hiv
  have hd := decrypt_length key iv pre hiv
  have e : (fun c : Block => if ∃ m, decrypt key iv (pre ++ c.toList) = pkcs7 16 m then (1 : ℚ) else 0) = fun c =>
      (fun b : List U8 => if ∃ v, b.getLast? = some v ∧ 1 ≤ v.toNat ∧ v.toNat ≤ 16 ∧ ∀ x ∈ b.drop (16 - v.toNat), x = v then (1 : ℚ) else 0)
        (Spec.xorBytes (Spec.Aes.decrypt key c.toList) (lastBlock iv pre)) := by
    funext c
    have hB : (Spec.xorBytes (Spec.Aes.decrypt key c.toList) (lastBlock iv pre)).length = 16 := by simp [Spec.xorBytes, aes_decrypt_length, hl]
    simp only [decrypt_last key iv pre c.toList hpre c.toList_length]
    generalize Spec.xorBytes (Spec.Aes.decrypt key c.toList) (lastBlock iv pre) = B at hB
    generalize decrypt key iv pre = A at hd
    congr 1
    rw [padded_iff B hB]
    refine propext ⟨?_, ?_⟩
    · rintro ⟨m, hm⟩
      refine ⟨16 - m.length % 16, Finset.mem_Icc.2 ⟨by omega, by omega⟩, ?_⟩
      rw [pkcs7] at hm
      have hlen := congrArg List.length hm
      simp only [List.length_append, List.length_replicate] at hlen
      have := congrArg (List.drop (A.length + (16 - (16 - m.length % 16)))) hm
      rw [← List.drop_drop, List.drop_left, List.drop_left' (by omega)] at this
      exact this
    · rintro ⟨n, hn, h⟩
      obtain ⟨h1, h2⟩ := Finset.mem_Icc.1 hn
      refine ⟨A ++ B.take (16 - n), ?_⟩
      have hm : 16 - (A ++ B.take (16 - n)).length % 16 = n := by
        rw [List.length_append, List.length_take, hB]
        omega
      rw [pkcs7, hm, List.append_assoc, ← h, List.take_append_drop]
  rw [e]
  refine (avg_decrypt key (lastBlock iv pre) hl (fun b : List U8 => if ∃ v, b.getLast? = some v ∧ 1 ≤ v.toNat ∧ v.toNat ≤ 16 ∧
    ∀ x ∈ b.drop (16 - v.toNat), x = v then (1 : ℚ) else 0)).trans ?_
  convert avg_padded

/-- A way to cut that meets the hypotheses: one block before the random one, the random one in two parts. -/
theorem example_cut (T : Target) (c : Block) : ([List.replicate 16 1, c.toList.take 5, c.toList.drop 5] : List (List U8)).flatten =
      List.replicate 16 1 ++ c.toList ∧
    ∀ b ∈ ([List.replicate 16 1, c.toList.take 5, c.toList.drop 5] : List (List U8)), b.length + 16 ≤ T.isizeMax := by
  have hT : 2 ^ 31 - 1 ≤ T.isizeMax := by rcases T.bits_cases with h | h <;> simp [Target.isizeMax, h]
  refine ⟨by simp, fun b hb => ?_⟩
  simp only [List.mem_cons, List.not_mem_nil, or_false] at hb
  rcases hb with rfl | rfl | rfl <;> simp <;> omega

example (T : Target) (iv : Vector U8 16) := C94_accepted C86_text.1 T 65 8 le_rfl le_rfl (List.replicate 24 7) (.inr (.inl List.length_replicate)) iv
  (List.replicate 16 1) (by decide) _ (fun c => (example_cut T c).1) (fun c => (example_cut T c).2)

example (iv : Block) := C94_padded (List.replicate 24 7) iv.toList (List.replicate 16 1) iv.toList_length (by decide)

end Verif.Props.Garbage
