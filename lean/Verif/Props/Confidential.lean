import Verif.Proof.Permutations
import Verif.Props.FromText
import Verif.Props.CbcSplit
import Verif.Props.CbcMisuse

/-!
Property C89: with a fresh random iv for every `Cipher`, ciphertexts tell an attacker who chooses the plaintexts no more than random octets
would, unless the attacker can be turned into one that tells AES from a random function. ("iv - Initialization Vector (this better be a
very random value)", src/aes_cbc.rs.) The attackers, the games and the reduction are in `Spec/Games.lean`.
-/

namespace Verif.Props.Confidential
open Verif.Props.CbcSplit Verif.Props.CbcMisuse
open Verif Verif.Source Verif.Text Verif.Props.Source Verif.Props.FromText Verif.AesCbc Spec.Cbc Spec.Games

/-- A call of an attacker as a call on a `Cipher`. -/
def call : Op → Call
  | .write b => .write b
  | .flush => .flush

/-- The octets in an answer `Ok(bytes)`. -/
def octets : Val → List U8
  | .enum .Ok [.seq xs] => xs.filterMap fun x => match x with | .u8 b => some b | _ => none
  | _ => []

/-- The octets in the answers of a program. -/
def answered : Verif.Source.R (List Val) → List U8
  | .ok vs => vs.flatMap octets
  | .error _ => []

/-- What the program `p` gives for the calls of an attacker: `Cipher::new(iv)`, `init(key)`, then the calls. -/
def cipher (p : Program) (T : Target) (fuel depth : Nat) (key : List U8) (iv : Block) (ops : List Op) : List U8 :=
  answered (sessionIn p T fuel depth (.aes_cbc_Cipher_new, [bytes iv.toList]) ((Call.init key :: ops.map call).map cipherCall))

/-- No single write of the attacker is within a block of `isize::MAX`. -/
def Possible (T : Target) (op : Op) : Prop := ∀ b, op = .write b → b.length + 16 ≤ T.isizeMax

theorem octets_bytes (l : List U8) : octets (okVal (bytes l)) = l := by
  simp only [octets, okVal, bytes, List.filterMap_map]
  induction l with
  | nil => rfl
  | cons x xs ih => simp

theorem pkcs7_append (a t : List U8) (h : a.length % 16 = 0) : pkcs7 16 (a ++ t) = a ++ pkcs7 16 t := by
  rw [pkcs7, pkcs7, List.length_append, Nat.add_mod, h, Nat.zero_add, Nat.mod_mod, List.append_assoc]

theorem plain_append (a t : List U8) (h : a.length % 16 = 0) (ops : List Op) : plain (a ++ t) ops = a ++ plain t ops := by
  induction ops generalizing t with
  | nil => rfl
  | cons op ops ih =>
    cases op with
    | write b => rw [plain, plain, List.append_assoc, ih]
    | flush => rw [plain, plain, pkcs7_append a t h, List.append_assoc]

theorem encrypt_whole (key iv s : List U8) : encrypt key iv (s.take (16 * (s.length / 16))) = encrypt key iv s := by
  have := blocks_take_cut s
  rw [Verif.Pkcs7.padCut] at this
  rw [encrypt, encrypt, this]

theorem enc_octets (key : List U8) (ops : List Op) (iv pending : List U8) (hp : pending.length < 16) :
    (List.zipWith cipherVal (ops.map call) (Enc.run ⟨some key, iv, pending⟩ (ops.map call)).2).flatMap octets =
      encrypt key iv (plain pending ops) := by
  induction ops generalizing iv pending with
  | nil => exact (encrypt_short key iv pending hp).symm
  | cons op ops ih =>
    rw [List.map_cons, Enc.run]
    simp only [Prod.map, id, List.zipWith_cons_cons, List.flatMap_cons]
    cases op with
    | write b =>
      simp only [call, Enc.step]
      by_cases hs : (pending ++ b).length < 16
      · simp only [if_pos hs, cipherVal]
        rw [ih iv _ hs, plain]
        rfl
      · simp only [if_neg hs, cipherVal]
        rw [ih _ _ (tail_length _), octets_bytes, plain]
        have e : pending ++ b = (pending ++ b).take (16 * ((pending ++ b).length / 16)) ++ tail (pending ++ b) := by
          rw [tail, List.take_append_drop]
        have hl : ((pending ++ b).take (16 * ((pending ++ b).length / 16))).length % 16 = 0 := by
          rw [List.length_take]; omega
        conv_rhs => rw [e, plain_append _ _ hl, encrypt_append _ _ _ _ hl, encrypt_whole]
    | flush =>
      simp only [call, Enc.step, cipherVal]
      rw [ih _ _ (by simp), octets_bytes, plain]
      have hl : (pkcs7 16 pending).length % 16 = 0 := by rw [pkcs7_length]; omega
      have hl' : (pkcs7 16 pending).length = 16 := by rw [pkcs7_length]; omega
      rw [encrypt_append _ _ _ _ hl]
      congr 2
      rw [lastBlock, blocks_encrypt]
      have : Spec.Cbc.blocks (pkcs7 16 pending) = [pkcs7 16 pending] := by
        have := blocks_cons (pkcs7 16 pending) [] hl'
        rwa [List.append_nil, blocks_short [] (by simp)] at this
      rw [encrypt, this]
      simp [encBlocks]

/-- What the program gives is the CBC encryption of the padded plaintext. -/
theorem cipher_eq {p : Program} (hp : IsProgram Files.lib sources p) (T : Target) (fuel depth : Nat) (hf : 65 ≤ fuel) (hd : 8 ≤ depth)
    (key : List U8) (hk : key.length = 16 ∨ key.length = 24 ∨ key.length = 32) (iv : Block) (ops : List Op)
    (ho : ∀ op ∈ ops, Possible T op) : cipher p T fuel depth key iv ops = encrypt key iv.toList (plain [] ops) := by
  have h := C68_source_cipher T fuel depth hf hd ⟨iv.toList.toArray, by simp⟩ (Call.init key :: ops.map call) (by
    intro x hx b hb
    subst hb
    simp only [List.mem_cons, List.mem_map, reduceCtorEq, false_or] at hx
    obtain ⟨op, h1, h2⟩ := hx
    cases op with
    | write b' =>
      cases h2
      exact ho _ h1 b rfl
    | flush => cases h2)
  rw [cipher, C86_text.2 p hp, sessionIn_crate]
  have e : (⟨iv.toList.toArray, by simp⟩ : Vector U8 16).toList = iv.toList := by simp [Vector.toList]
  rw [e] at h
  rw [h, answered, cipherAnswers, Enc.run]
  simp only [Prod.map, id, List.zipWith_cons_cons, List.flatMap_cons, Enc.step]
  rw [if_pos (show validKey key from hk)]
  simp only [cipherVal]
  rw [enc_octets key ops iv.toList [] (by simp)]
  rfl

theorem aes_toList (key : List U8) (x : Block) : (aes key x).toList = Spec.Aes.encrypt key x.toList := by
  have h := aes_encrypt_length key x.toList
  apply List.ext_getElem
  · simp [h]
  · intro i h1 h2
    simp only [aes, List.Vector.toList_ofFn, List.getElem_ofFn, List.getD_eq_getElem _ _ h2]

theorem blocksOf_toList (s : List U8) : (blocksOf s).map (·.toList) = Spec.Cbc.blocks s := by
  rw [blocksOf, Spec.Cbc.blocks, List.map_map]
  apply List.map_congr_left
  intro i hi
  rw [List.mem_range] at hi
  apply List.ext_getElem
  · simp; omega
  · intro j h1 h2
    simp only [Function.comp, List.Vector.toList_ofFn, List.getElem_ofFn, List.getElem_take, List.getElem_drop]
    rw [List.getD_eq_getElem]

theorem run_cbc (key : List U8) (c : Block) (ms : List Block) (k : List U8 → Distinguisher) :
    (cbc c ms k).run (aes key) =
      (k (encBlocks (Spec.Aes.encrypt key) c.toList (ms.map (·.toList))).flatten).run (aes key) := by
  induction ms generalizing c k with
  | nil => rfl
  | cons m ms ih =>
    rw [cbc, Distinguisher.run, ih, List.map_cons, encBlocks, List.flatten_cons, aes_toList]
    rfl

/-- The attacker against the program is the distinguisher against AES. -/
theorem real_eq {p : Program} (hp : IsProgram Files.lib sources p) (T : Target) (fuel depth : Nat) (hf : 65 ≤ fuel) (hd : 8 ≤ depth)
    (key : List U8) (hk : key.length = 16 ∨ key.length = 24 ∨ key.length = 32) (a : Attacker) (n : Nat) (ha : a.Within (Possible T) n) :
    real (cipher p T fuel depth key) a = a.reduce.run (aes key) := by
  induction a generalizing n with
  | answer yes => rfl
  | ask ops next ih =>
    obtain ⟨ho, -, hw⟩ := ha
    rw [real, Attacker.reduce, Distinguisher.run]
    refine congrArg avg (funext fun iv => ?_)
    rw [run_cbc, blocksOf_toList, ← ih iv _ _ (hw iv _), cipher_eq hp T fuel depth hf hd key hk iv ops ho]
    rfl

theorem within_cbc (n : Nat) (c : Block) (ms : List Block) (hn : ms.length ≤ n) (k : List U8 → Distinguisher)
    (h : ∀ l, (k l).Within (n - ms.length)) : (cbc c ms k).Within n := by
  induction ms generalizing n c k with
  | nil => exact h []
  | cons m ms ih =>
    rw [List.length_cons] at hn h
    exact ⟨by omega, fun y => ih (n - 1) y (by omega) _ fun l => by
      rw [show n - 1 - ms.length = n - (ms.length + 1) by omega]; exact h _⟩

/-- **C89.** The reduction asks for as many values of the function as the attacker asks for blocks. -/
theorem C89_queries (ok : Op → Prop) (a : Attacker) (n : Nat) (ha : a.Within ok n) : a.reduce.Within n := by
  induction a generalizing n with
  | answer yes => trivial
  | ask ops next ih =>
    obtain ⟨-, hn, hw⟩ := ha
    intro iv
    refine within_cbc n iv _ (by rw [blocksOf_length]; exact hn) _ fun l => ?_
    rw [blocksOf_length]
    exact ih iv l _ (hw iv l)

/-- **C89.** An attacker chooses what is written to `Cipher`s, each with a fresh random iv and all with the same random key, and sees the
ivs and what the `Cipher`s of the program in the text give; it may choose each series of calls after it has seen what the earlier ones
gave. It has at most `n` blocks encrypted. Its chance to say yes differs from its chance when it is given random octets instead of the
ciphertexts by no more than `n * (n - 1) / 2 ^ 129` and the advantage of the distinguisher `a.reduce` for AES, which has `n` queries. -/
theorem C89_random {p : Program} (hp : IsProgram Files.lib sources p) (T : Target) (fuel depth : Nat) (hf : 65 ≤ fuel) (hd : 8 ≤ depth)
    (k : Nat) (hk : k = 16 ∨ k = 24 ∨ k = 32) (a : Attacker) (n : Nat) (ha : a.Within (Possible T) n) :
    |(avg fun key : List.Vector U8 k => real (cipher p T fuel depth key.toList) a) - ideal a| ≤
      a.reduce.advantage k + n * (n - 1) / 2 ^ 129 := by
  have h : (avg fun key : List.Vector U8 k => real (cipher p T fuel depth key.toList) a) =
      avg fun key : List.Vector U8 k => a.reduce.run (aes key.toList) :=
    congrArg avg (funext fun key => real_eq hp T fuel depth hf hd key.toList (by simpa using hk) a n ha)
  rw [h, Distinguisher.advantage]
  refine (abs_sub_le _ (avg fun f : Block → Block => a.reduce.run f) _).trans ?_
  have := random_function a n ha
  linarith

/-- Random octets do not depend on the side. -/
theorem ideal_side (a : Chooser) (h : a.Fair) : ideal (a.side false) = ideal (a.side true) := by
  induction a with
  | answer yes => rfl
  | ask l r next ih =>
    obtain ⟨hs, hn⟩ := h
    have e (right : Bool) : ideal ((Chooser.ask l r next).side right) =
        avg fun iv : Block => avg fun c : List.Vector Spec.Byte (16 * size l) => ideal ((next iv c.toList).side right) := by
      cases right with
      | false => rfl
      | true =>
        rw [hs]
        rfl
    rw [e, e]
    exact congrArg avg (funext fun iv => congrArg avg (funext fun c => ih iv c.toList (hn iv c.toList)))

/-- **C89.** An attacker that names two series of calls of equal size each time, and sees what the `Cipher`s of the program in the text
give for one of the two, always on the same side, does not find out the side, up to the same quantities. -/
theorem C89_left_or_right {p : Program} (hp : IsProgram Files.lib sources p) (T : Target) (fuel depth : Nat) (hf : 65 ≤ fuel)
    (hd : 8 ≤ depth) (k : Nat) (hk : k = 16 ∨ k = 24 ∨ k = 32) (a : Chooser) (n : Nat) (ha : a.Fair)
    (hl : (a.side false).Within (Possible T) n) (hr : (a.side true).Within (Possible T) n) :
    |(avg fun key : List.Vector U8 k => real (cipher p T fuel depth key.toList) (a.side false)) -
        avg fun key : List.Vector U8 k => real (cipher p T fuel depth key.toList) (a.side true)| ≤
      (a.side false).reduce.advantage k + (a.side true).reduce.advantage k + n * (n - 1) / 2 ^ 128 := by
  have h1 := C89_random hp T fuel depth hf hd k hk (a.side false) n hl
  have h2 := C89_random hp T fuel depth hf hd k hk (a.side true) n hr
  rw [ideal_side a ha] at h1
  have e : (n * (n - 1) / 2 ^ 128 : ℚ) = n * (n - 1) / 2 ^ 129 + n * (n - 1) / 2 ^ 129 := by ring
  rw [e]
  rw [abs_le] at *
  constructor <;> linarith [h1.1, h1.2, h2.1, h2.2]

/-- **C89.** AES with a key permutes the blocks, so that it can be told from a random function, but hardly with few questions: a distinguisher
with `n` questions tells AES from a random function no better than from a random permutation, up to `n * (n - 1) / 2 ^ 129`. -/
theorem C89_switch (d : Distinguisher) (n k : Nat) (hd : d.Within n) :
    d.advantage k ≤ d.advantageAmongPermutations k + n * (n - 1) / 2 ^ 129 :=
  (abs_sub_le _ (avg fun f : Equiv.Perm Block => d.run f) _).trans (add_le_add le_rfl (random_permutation d n hd))

/-- **C89.** `C89_random` with AES compared to a random permutation. -/
theorem C89_permutation {p : Program} (hp : IsProgram Files.lib sources p) (T : Target) (fuel depth : Nat) (hf : 65 ≤ fuel) (hd : 8 ≤ depth)
    (k : Nat) (hk : k = 16 ∨ k = 24 ∨ k = 32) (a : Attacker) (n : Nat) (ha : a.Within (Possible T) n) :
    |(avg fun key : List.Vector U8 k => real (cipher p T fuel depth key.toList) a) - ideal a| ≤
      a.reduce.advantageAmongPermutations k + n * (n - 1) / 2 ^ 128 := by
  have h1 := C89_random hp T fuel depth hf hd k hk a n ha
  have h2 := C89_switch a.reduce n k (C89_queries _ a n ha)
  have e : (n * (n - 1) / 2 ^ 128 : ℚ) = n * (n - 1) / 2 ^ 129 + n * (n - 1) / 2 ^ 129 := by ring
  rw [e]
  linarith

/-- **C89.** `C89_left_or_right` with AES compared to a random permutation. -/
theorem C89_left_or_right_permutation {p : Program} (hp : IsProgram Files.lib sources p) (T : Target) (fuel depth : Nat) (hf : 65 ≤ fuel)
    (hd : 8 ≤ depth) (k : Nat) (hk : k = 16 ∨ k = 24 ∨ k = 32) (a : Chooser) (n : Nat) (ha : a.Fair)
    (hl : (a.side false).Within (Possible T) n) (hr : (a.side true).Within (Possible T) n) :
    |(avg fun key : List.Vector U8 k => real (cipher p T fuel depth key.toList) (a.side false)) -
        avg fun key : List.Vector U8 k => real (cipher p T fuel depth key.toList) (a.side true)| ≤
      (a.side false).reduce.advantageAmongPermutations k + (a.side true).reduce.advantageAmongPermutations k + n * (n - 1) / 2 ^ 127 := by
  have h1 := C89_left_or_right hp T fuel depth hf hd k hk a n ha hl hr
  have h2 := C89_switch (a.side false).reduce n k (C89_queries _ _ n hl)
  have h3 := C89_switch (a.side true).reduce n k (C89_queries _ _ n hr)
  have e : (n * (n - 1) / 2 ^ 127 : ℚ) = n * (n - 1) / 2 ^ 128 + n * (n - 1) / 2 ^ 129 + n * (n - 1) / 2 ^ 129 := by ring
  rw [e]
  linarith

theorem birthday_ask (q : Nat) (seen : List (Block × List U8)) : birthday (q + 1) seen =
    .ask [.write (List.replicate 16 0)] fun iv c =>
      if ∃ earlier ∈ seen, earlier.2 = c ∧ earlier.1 ≠ iv then .answer true else birthday q ((iv, c) :: seen) := rfl

theorem size_zeros : size [.write (List.replicate 16 0)] = 1 := rfl

theorem birthday_within (T : Target) (n : Nat) (seen : List (Block × List U8)) : (birthday n seen).Within (Possible T) n := by
  have hT : 2 ^ 31 - 1 ≤ T.isizeMax := by rcases T.bits_cases with h | h <;> simp [Target.isizeMax, h]
  induction n generalizing seen with
  | zero => trivial
  | succ n ih =>
    refine ⟨?_, by rw [size_zeros]; omega, fun iv c => ?_⟩
    · intro op ho b hb
      rw [List.mem_singleton.1 ho] at hb
      cases hb
      rw [List.length_replicate]
      omega
    · dsimp only
      split
      · trivial
      · rw [size_zeros, Nat.add_sub_cancel]
        exact ih _

theorem birthday_real {p : Program} (hp : IsProgram Files.lib sources p) (T : Target) (fuel depth : Nat) (hf : 65 ≤ fuel) (hd : 8 ≤ depth)
    (key : List U8) (hk : key.length = 16 ∨ key.length = 24 ∨ key.length = 32) (n : Nat) (seen : List (Block × List U8))
    (hs : ∀ x ∈ seen, x.2 = Spec.Aes.encrypt key x.1.toList) : real (cipher p T fuel depth key) (birthday n seen) = 0 := by
  induction n generalizing seen with
  | zero => rfl
  | succ n ih =>
    have hw := (birthday_within T (n + 1) seen).1
    rw [birthday_ask, real]
    have e : ∀ iv : Block, cipher p T fuel depth key iv [.write (List.replicate 16 0)] = Spec.Aes.encrypt key iv.toList := fun iv => by
      rw [cipher_eq hp T fuel depth hf hd key hk iv _ hw]
      have hz : Spec.xorBytes (List.replicate 16 (0 : U8)) iv.toList = iv.toList := by
        apply List.ext_getElem
        · simp [Spec.xorBytes]
        · intro i h1 h2
          simp only [Spec.xorBytes, List.getElem_zipWith, List.getElem_replicate]
          exact BitVec.zero_xor
      exact (encrypt_one key iv.toList _ List.length_replicate).trans (by rw [hz])
    have : (fun iv : Block => real (cipher p T fuel depth key)
        (if ∃ earlier ∈ seen, earlier.2 = cipher p T fuel depth key iv [.write (List.replicate 16 0)] ∧ earlier.1 ≠ iv then .answer true
          else birthday n ((iv, cipher p T fuel depth key iv [.write (List.replicate 16 0)]) :: seen))) = fun _ => 0 := by
      funext iv
      rw [if_neg, ih]
      · intro x hx
        rcases List.mem_cons.1 hx with rfl | hx
        · exact e iv
        · exact hs x hx
      · rintro ⟨x, hx, h1, h2⟩
        rw [hs x hx, e] at h1
        have := congrArg (Spec.Aes.decrypt key) h1
        rw [aes_dec_enc _ _ (by simp), aes_dec_enc _ _ (by simp)] at this
        exact h2 (List.Vector.toList_injective this)
    rw [this, avg_const]

theorem birthday_step (x S N : ℚ) (hx : 0 ≤ x) (hS : 0 ≤ S) (hN : 0 < N) :
    x * (1 / N - (1 - S + S ^ 2 / 2 + S / N)) + (1 - S + S ^ 2 / 2 + S / N) ≤ 1 - (x + S) + (x + S) ^ 2 / 2 + (x + S) / N := by
  have h : (x + S) / N = x / N + S / N := add_div _ _ _
  have h3 : x * (1 / N) = x / N := by ring
  have h4 : 0 ≤ x * (S / N) := mul_nonneg hx (div_nonneg hS hN.le)
  rw [h]
  nlinarith [mul_nonneg hx (sq_nonneg S), sq_nonneg x]

theorem birthday_ideal (n : Nat) (seen : List (Block × List U8)) (D : Finset Block) (w : Block → Block)
    (hD : ∀ c : Block, (∃ x ∈ seen, x.2 = c.toList) → c ∈ D) (hD' : ∀ c ∈ D, ∃ x ∈ seen, x.2 = c.toList)
    (hw : ∀ x ∈ seen, ∀ c : Block, x.2 = c.toList → x.1 = w c) :
    1 - ideal (birthday n seen) ≤ 1 - collide D.card n + collide D.card n ^ 2 / 2 + collide D.card n / N := by
  induction n generalizing seen D w with
  | zero =>
    have : collide D.card 0 = 0 := by rw [collide, Finset.range_zero, Finset.sum_empty, zero_div]
    rw [this, birthday, ideal, if_neg Bool.false_ne_true, zero_div]
    norm_num
  | succ n ih =>
    rw [birthday_ask, ideal]
    have h16 : ∀ (m : Nat) (k : List U8 → ℚ), m = 1 → (avg fun c : List.Vector Spec.Byte (16 * m) => k c.toList) = avg fun c : Block => k c.toList := by
      rintro _ k rfl
      rfl
    rw [show (fun iv : Block => avg fun c : List.Vector Spec.Byte (16 * size [.write (List.replicate 16 0)]) =>
        ideal (if ∃ earlier ∈ seen, earlier.2 = c.toList ∧ earlier.1 ≠ iv then .answer true else birthday n ((iv, c.toList) :: seen))) =
      fun iv : Block => avg fun c : Block => ideal (if ∃ earlier ∈ seen, earlier.2 = c.toList ∧ earlier.1 ≠ iv then .answer true
        else birthday n ((iv, c.toList) :: seen)) from funext fun iv => h16 _ (fun l => ideal (if ∃ earlier ∈ seen, earlier.2 = l ∧ earlier.1 ≠ iv
          then .answer true else birthday n ((iv, l) :: seen))) size_zeros]
    have hcol := collide_succ D.card n
    have hS := collide_nonneg (D.card + 1) n
    have hN : (0 : ℚ) < N := by rw [N_eq]; positivity
    generalize hB : 1 - collide (D.card + 1) n + collide (D.card + 1) n ^ 2 / 2 + collide (D.card + 1) n / N = B at ih
    have step : ∀ iv c : Block, 1 - ideal (if ∃ earlier ∈ seen, earlier.2 = c.toList ∧ earlier.1 ≠ iv then .answer true
        else birthday n ((iv, c.toList) :: seen)) ≤ (if c ∈ D then (if iv ∈ ({w c} : Finset Block) then 1 else 0) - B else 0) + B := by
      intro iv c
      by_cases hc : c ∈ D
      · rw [if_pos hc, sub_add_cancel]
        by_cases hi : iv = w c
        · rw [if_pos (Finset.mem_singleton.2 hi)]
          linarith [ideal_nonneg (if ∃ earlier ∈ seen, earlier.2 = c.toList ∧ earlier.1 ≠ iv then .answer true
            else birthday n ((iv, c.toList) :: seen))]
        · obtain ⟨x, hx, hxc⟩ := hD' c hc
          rw [if_pos ⟨x, hx, hxc, fun e => hi (e ▸ hw x hx c hxc)⟩, if_neg (fun h => hi (Finset.mem_singleton.1 h)), ideal]
          norm_num
      · rw [if_neg hc, zero_add, if_neg]
        · have := ih ((iv, c.toList) :: seen) (insert c D) (Function.update w c iv) ?_ ?_ ?_
          · rw [Finset.card_insert_of_notMem hc, hB] at this
            exact this
          · rintro c' ⟨x, hx, hxc⟩
            rcases List.mem_cons.1 hx with rfl | hx
            · exact Finset.mem_insert.2 (.inl (List.Vector.toList_injective hxc).symm)
            · exact Finset.mem_insert.2 (.inr (hD c' ⟨x, hx, hxc⟩))
          · intro c' hc'
            rcases Finset.mem_insert.1 hc' with rfl | hc'
            · exact ⟨_, List.mem_cons_self, rfl⟩
            · obtain ⟨x, hx, hxc⟩ := hD' c' hc'
              exact ⟨x, List.mem_cons_of_mem _ hx, hxc⟩
          · intro x hx c' hxc
            rcases List.mem_cons.1 hx with rfl | hx
            · rw [← List.Vector.toList_injective hxc, Function.update_self]
            · have : c' ≠ c := fun e => hc (hD c ⟨x, hx, e ▸ hxc⟩)
              rw [Function.update_of_ne this]
              exact hw x hx c' hxc
        · rintro ⟨x, hx, hxc, -⟩
          exact hc (hD c ⟨x, hx, hxc⟩)
    have h1 : 1 - (avg fun iv : Block => avg fun c : Block => ideal (if ∃ earlier ∈ seen, earlier.2 = c.toList ∧ earlier.1 ≠ iv then .answer true
        else birthday n ((iv, c.toList) :: seen))) ≤ (D.card / N * (1 / N - B)) + B := by
      have e1 : (1 : ℚ) = avg fun _ : Block => avg fun _ : Block => (1 : ℚ) := by rw [avg_const, avg_const]
      conv_lhs => rw [e1, avg_sub]
      simp only [avg_sub]
      refine (avg_mono fun iv => avg_mono fun c => step iv c).trans (le_of_eq ?_)
      rw [avg_comm]
      have e2 : (fun c : Block => avg fun iv : Block => (if c ∈ D then (if iv ∈ ({w c} : Finset Block) then 1 else 0) - B else 0) + B) =
          fun c => (if c ∈ D then (1 : ℚ) else 0) * (1 / N - B) + B := by
        funext c
        by_cases hc : c ∈ D
        · simp only [if_pos hc, sub_add_cancel, one_mul]
          rw [avg_mem_card, Finset.card_singleton, Nat.cast_one]
        · simp only [if_neg hc, zero_add, zero_mul, avg_const]
      rw [e2, avg_add, avg_const, avg_scale, avg_mem_card]
    refine h1.trans ?_
    rw [hcol, ← hB]
    exact birthday_step _ _ _ (div_nonneg (Nat.cast_nonneg _) hN.le) hS hN

/-- **C89.** The quadratic term is needed: this attacker has one and the same block encrypted `n` times, with fresh random ivs. It never says
yes when it sees what the `Cipher`s of the program in the text give, whatever the key; given random octets it says yes with probability at least
`s - s ^ 2 / 2 - s / 2 ^ 128`, where `s = n * (n - 1) / 2 ^ 129`. For `n = 2 ^ 64` this is more than a third. -/
theorem C89_birthday {p : Program} (hp : IsProgram Files.lib sources p) (T : Target) (fuel depth : Nat) (hf : 65 ≤ fuel) (hd : 8 ≤ depth)
    (key : List U8) (hk : key.length = 16 ∨ key.length = 24 ∨ key.length = 32) (n : Nat) :
    (birthday n []).Within (Possible T) n ∧
    real (cipher p T fuel depth key) (birthday n []) = 0 ∧
    (n * (n - 1) / 2 ^ 129 - (n * (n - 1) / 2 ^ 129) ^ 2 / 2 - n * (n - 1) / 2 ^ 129 / 2 ^ 128 : ℚ) ≤ ideal (birthday n []) := by
  refine ⟨birthday_within T n [], birthday_real hp T fuel depth hf hd key hk n [] (by simp), ?_⟩
  have h := birthday_ideal n [] ∅ id (by simp) (by simp) (by simp)
  rw [Finset.card_empty, collide_zero, N_eq] at h
  have e : (n * (n - 1) / 2 : ℚ) / 2 ^ 128 = n * (n - 1) / 2 ^ 129 := by ring
  rw [e] at h
  linarith

/-- The number in the comment above. -/
example : (1 / 3 : ℚ) < ideal (birthday (2 ^ 64) []) := by
  have h := (C89_birthday C86_text.1 ⟨.w64, true⟩ 65 8 le_rfl le_rfl (List.replicate 16 0) (.inl List.length_replicate) (2 ^ 64)).2.2
  refine lt_of_lt_of_le ?_ h
  norm_num

/-- An attacker that names two different blocks, and then has that block encrypted which makes the input of AES the same as it was if the
left one was taken. -/
def tester (x y : Block) : Chooser :=
  .ask [.write x.toList] [.write y.toList] fun iv c =>
    .ask [.write (Spec.xorBytes (Spec.xorBytes x.toList iv.toList) c)] [.write (Spec.xorBytes (Spec.xorBytes x.toList iv.toList) c)]
      fun _ c' => .answer (c' == c)

theorem encrypt_block_two (key iv x z : List U8) (hx : x.length = 16) (hz : z.length = 16) :
    encrypt key iv (x ++ z) = Spec.Aes.encrypt key (Spec.xorBytes x iv) ++
      Spec.Aes.encrypt key (Spec.xorBytes z (Spec.Aes.encrypt key (Spec.xorBytes x iv))) := by
  have h1 := blocks_cons x z hx
  have h2 := blocks_cons z [] hz
  rw [List.append_nil, blocks_short [] (by simp)] at h2
  rw [encrypt, h1, h2]
  simp [encBlocks]

theorem xor_cancel (a b : List U8) (ha : a.length = 16) (hb : b.length = 16) : Spec.xorBytes (Spec.xorBytes a b) b = a := by
  apply List.ext_getElem
  · simp [Spec.xorBytes, ha, hb]
  · intro i h1 h2
    simp only [Spec.xorBytes, List.getElem_zipWith, BitVec.xor_assoc, BitVec.xor_self, BitVec.xor_zero]

/-- **C89.** The fresh iv is needed: when all the calls are made on one `Cipher`, this attacker, with two blocks, says yes if it sees the left
ones and no if it sees the right ones, whatever the key and the iv. -/
theorem C89_same_cipher {p : Program} (hp : IsProgram Files.lib sources p) (T : Target) (fuel depth : Nat) (hf : 65 ≤ fuel)
    (hd : 8 ≤ depth) (key : List U8) (hk : key.length = 16 ∨ key.length = 24 ∨ key.length = 32) (iv x y : Block) (hxy : x ≠ y) :
    (tester x y).Fair ∧
    continued (cipher p T fuel depth key) iv [] ((tester x y).side false) = 1 ∧
    continued (cipher p T fuel depth key) iv [] ((tester x y).side true) = 0 := by
  have hT : 2 ^ 31 - 1 ≤ T.isizeMax := by rcases T.bits_cases with h | h <;> simp [Target.isizeMax, h]
  have h0 : cipher p T fuel depth key iv [] = [] := by
    rw [cipher_eq hp T fuel depth hf hd key hk iv [] (by simp)]
    exact encrypt_short _ _ _ (by simp [plain])
  have h1 (w : Block) : cipher p T fuel depth key iv [.write w.toList] = Spec.Aes.encrypt key (Spec.xorBytes w.toList iv.toList) := by
    rw [cipher_eq hp T fuel depth hf hd key hk iv _ (by
      intro op ho b hb
      simp only [List.mem_singleton] at ho
      subst hb
      cases ho
      have := w.toList_length
      omega)]
    exact encrypt_one key iv.toList w.toList w.toList_length
  have h2 (w : Block) (z : List U8) (hz : z.length = 16) : (cipher p T fuel depth key iv [.write w.toList, .write z]).drop
      (cipher p T fuel depth key iv [.write w.toList]).length =
        Spec.Aes.encrypt key (Spec.xorBytes z (Spec.Aes.encrypt key (Spec.xorBytes w.toList iv.toList))) := by
    rw [h1, cipher_eq hp T fuel depth hf hd key hk iv _ (by
      intro op ho b hb
      simp only [List.mem_cons, List.not_mem_nil, or_false] at ho
      subst hb
      rcases ho with ho | ho
      · cases ho
        have := w.toList_length
        omega
      · cases ho
        omega)]
    show List.drop _ (encrypt key iv.toList (w.toList ++ z)) = _
    rw [encrypt_block_two _ _ _ _ (by simp) hz]
    exact List.drop_left
  have hlen (w : Block) : (Spec.xorBytes (Spec.xorBytes x.toList iv.toList) (Spec.Aes.encrypt key (Spec.xorBytes w.toList iv.toList))).length = 16 := by
    simp [Spec.xorBytes, aes_encrypt_length]
  have main (w : Block) (r : Bool) (hw : w = if r then y else x) :
      continued (cipher p T fuel depth key) iv [] ((tester x y).side r) =
        if Spec.Aes.encrypt key (Spec.xorBytes x.toList iv.toList) == Spec.Aes.encrypt key (Spec.xorBytes w.toList iv.toList)
          then 1 else 0 := by
    have e1 : (tester x y).side r = .ask [.write w.toList] fun iv c =>
        .ask [.write (Spec.xorBytes (Spec.xorBytes x.toList iv.toList) c)] fun _ c' => .answer (c' == c) := by
      subst hw
      cases r <;> rfl
    rw [e1, continued, continued, continued]
    simp only [List.nil_append, List.cons_append, h0, List.length_nil, List.drop_zero]
    rw [h2 w _ (by rw [h1]; exact hlen w), h1]
    rw [xor_cancel _ _ (by simp [Spec.xorBytes]) (aes_encrypt_length _ _)]
  refine ⟨⟨by simp [size, plain], fun _ _ => ⟨rfl, fun _ _ => trivial⟩⟩, ?_, ?_⟩
  · rw [main x false rfl]; simp
  · rw [main y true rfl, if_neg]
    rw [beq_iff_eq]
    intro h
    have := congrArg (Spec.Aes.decrypt key) h
    rw [aes_dec_enc _ _ (by simp [Spec.xorBytes]), aes_dec_enc _ _ (by simp [Spec.xorBytes])] at this
    have h3 := xor_cancel x.toList iv.toList (by simp) (by simp)
    rw [this, xor_cancel y.toList iv.toList (by simp) (by simp)] at h3
    exact hxy (List.Vector.toList_injective h3.symm)

/-- Two blocks that meet the hypothesis of `C89_same_cipher`. -/
example (T : Target) (iv : Block) := C89_same_cipher C86_text.1 T 65 8 le_rfl le_rfl (List.replicate 32 7) (.inr (.inr List.length_replicate)) iv
  (List.Vector.replicate 16 (0 : U8)) (List.Vector.replicate 16 1) (by decide)

/-- An attacker that meets the hypotheses: it names the messages `[0]` and `[1]`, sees the ciphertext, then has it encrypted, and compares
the first octets. -/
def example_ : Chooser :=
  .ask [.write [0], .flush] [.write [1], .flush] fun _ c => .ask [.write (c.take 16), .flush] [.write (c.take 16), .flush] fun _ c' =>
    .answer (c.head? == c'.head?)

theorem size_message (m : List U8) : size [.write m, .flush] = m.length / 16 + 1 := by
  rw [size, plain, plain, plain, List.nil_append, List.append_nil, pkcs7_length]
  omega

theorem example_meets (T : Target) : example_.Fair ∧ (example_.side false).Within (Possible T) 3 ∧ (example_.side true).Within (Possible T) 3 := by
  have hT : 2 ^ 31 - 1 ≤ T.isizeMax := by rcases T.bits_cases with h | h <;> simp [Target.isizeMax, h]
  have hok (m : List U8) (hm : m.length ≤ 16) : ∀ op ∈ [Op.write m, .flush], Possible T op := by
    intro op ho b hb
    subst hb
    simp only [List.mem_cons, reduceCtorEq, List.not_mem_nil, or_false, Op.write.injEq] at ho
    subst ho
    omega
  have h2 (c : List U8) : size [.write (c.take 16), .flush] ≤ 2 := by
    rw [size_message, List.length_take]; omega
  refine ⟨⟨by rw [size_message, size_message]; rfl, fun _ _ => ⟨rfl, fun _ _ => trivial⟩⟩, ⟨hok _ (by simp), ?_, fun _ c => ⟨hok _ ?_, ?_, fun _ _ => trivial⟩⟩,
    ⟨hok _ (by simp), ?_, fun _ c => ⟨hok _ ?_, ?_, fun _ _ => trivial⟩⟩⟩
  · show size [.write [0], .flush] ≤ 3
    rw [size_message]; decide
  · simp
  · show size [.write (c.take 16), .flush] ≤ 3 - size [.write [0], .flush]
    rw [size_message [0]]; exact h2 c
  · show size [.write [1], .flush] ≤ 3
    rw [size_message]; decide
  · simp
  · show size [.write (c.take 16), .flush] ≤ 3 - size [.write [1], .flush]
    rw [size_message [1]]; exact h2 c

/-- The theorems applied to that attacker. -/
example (T : Target) := C89_random C86_text.1 T 65 8 le_rfl le_rfl 16 (.inl rfl) _ 3 (example_meets T).2.1

example (T : Target) := C89_left_or_right C86_text.1 T 65 8 le_rfl le_rfl 24 (.inr (.inl rfl)) example_ 3 (example_meets T).1 (example_meets T).2.1
  (example_meets T).2.2

example (T : Target) := C89_permutation C86_text.1 T 65 8 le_rfl le_rfl 16 (.inl rfl) _ 3 (example_meets T).2.1

example (T : Target) := C89_left_or_right_permutation C86_text.1 T 65 8 le_rfl le_rfl 32 (.inr (.inr rfl)) example_ 3 (example_meets T).1
  (example_meets T).2.1 (example_meets T).2.2

example (T : Target) := C89_switch _ 3 16 (C89_queries _ _ 3 (example_meets T).2.1)

end Verif.Props.Confidential
