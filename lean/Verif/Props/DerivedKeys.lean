import Verif.Proof.KeyGames
import Verif.Props.FromText

/-!
Property C91: keys that are derived from one secret password with different salts tell an attacker no more than random keys would, unless the
attacker can be turned into one that tells HMAC with that password from a random function. The attackers, the games and the reduction are in
`Spec/KeyGames.lean`.
-/

namespace Verif.Props.DerivedKeys
open Verif Verif.Source Verif.Text Verif.Props.Source Verif.Props.FromText Spec.KeyGames
open Spec.Games (avg N_eq avg_const avg_mem_card)

attribute [local irreducible] avg

/-- The octets in an array. -/
def octets : Val → List U8
  | .seq xs => xs.filterMap fun x => match x with | .u8 b => some b | _ => none
  | _ => []

theorem octets_bytes (l : List U8) : octets (bytes l) = l := by
  simp only [octets, List.filterMap_map]
  induction l with
  | nil => rfl
  | cons x xs ih => simp

/-- What the program `p` writes into a buffer of `len` zeros, for `pbkdf2_sha256(password, salt, c, buffer)`. -/
def kdf (p : Program) (T : Target) (fuel depth : Nat) (password salt : List U8) (c len : Nat) : List U8 :=
  match call T p fuel depth .pbkdf2_pbkdf2_sha256 [bytes password, bytes salt, .usize c, bytes (List.replicate len 0)] with
  | .ok (_, [v]) => octets v
  | _ => []

/-- The salt can be hashed, and the buffer exists. -/
def Possible (T : Target) (salt : List U8) (_c len : Nat) : Prop := 8 * (64 + salt.length + 4) < 2 ^ T.bits ∧ len ≤ T.isizeMax

theorem kdf_eq {p : Program} (hp : IsProgram Files.lib sources p) (T : Target) (fuel depth : Nat) (hd : 8 ≤ depth) (password salt : List U8)
    (hP : 8 * password.length < 2 ^ T.bits) (c len : Nat) (hok : Possible T salt c len) (hc : 1 ≤ c) (hlen : len ≤ (2 ^ 32 - 1) * 32) :
    kdf p T fuel depth password salt c len = Spec.Pbkdf2.pbkdf2HmacSha256 password salt c len := by
  rw [kdf, C86_pbkdf2 hp T fuel depth hd password salt c (List.replicate len 0) hc hP hok.1 (by simpa using hok.2) (by simpa using hlen)]
  simp only [octets_bytes, List.length_replicate]

theorem hmac_toList (key x : List U8) : (Spec.KeyGames.hmac key x).toList = Spec.hmacSha256 key x := by
  have h : (Spec.hmacSha256 key x).length = 32 := by simp [Spec.hmacSha256, Spec.hmac]
  apply List.ext_getElem
  · simp [h]
  · intro i h1 h2
    simp only [Spec.KeyGames.hmac, List.Vector.toList_ofFn, List.getElem_ofFn, List.getD_eq_getElem _ _ h2]

/-- The iterated value as a digest. -/
def iter (password salt : List U8) (i : Nat) : Nat → Digest
  | 0 => Spec.KeyGames.hmac password (salt ++ Spec.beBytes 4 i)
  | j + 1 => Spec.KeyGames.hmac password (iter password salt i j).toList

theorem iter_toList (password salt : List U8) (i j : Nat) :
    (iter password salt i j).toList = Spec.Pbkdf2.U Spec.hmacSha256 password salt i j := by
  induction j with
  | zero => exact hmac_toList _ _
  | succ j ih => rw [iter, hmac_toList, ih, Spec.Pbkdf2.U]

theorem run_chain (password salt : List U8) (i j m : Nat) (acc : Digest) (k : Digest → Distinguisher) :
    ∃ acc' : Digest, (chain j (iter password salt i m) acc k).run (Spec.KeyGames.hmac password) = (k acc').run (Spec.KeyGames.hmac password) ∧
      acc'.toList = (List.range j).foldl (fun a x => Spec.xorBytes a (Spec.Pbkdf2.U Spec.hmacSha256 password salt i (m + x + 1))) acc.toList := by
  induction j generalizing m acc with
  | zero => exact ⟨acc, rfl, rfl⟩
  | succ j ih =>
    obtain ⟨acc', h1, h2⟩ := ih (m + 1) (List.Vector.map₂ (· ^^^ ·) acc (iter password salt i (m + 1)))
    refine ⟨acc', h1, ?_⟩
    rw [h2, List.range_succ_eq_map, List.foldl_cons, List.foldl_map, Nat.add_zero, ← iter_toList]
    simp only [Nat.add_comm, Nat.add_left_comm, Nat.succ_eq_add_one]
    rfl

theorem run_blocks (password salt : List U8) (c i l : Nat) (k : List U8 → Distinguisher) :
    (Spec.KeyGames.blocks salt c i l k).run (Spec.KeyGames.hmac password) =
      (k ((List.range l).flatMap fun x => Spec.Pbkdf2.F Spec.hmacSha256 password salt c (i + x + 1))).run (Spec.KeyGames.hmac password) := by
  induction l generalizing i k with
  | zero => rfl
  | succ l ih =>
    rw [Spec.KeyGames.blocks, Distinguisher.run]
    obtain ⟨acc', h1, h2⟩ := run_chain password salt (i + 1) (c - 1) 0 (iter password salt (i + 1) 0)
      (fun t => Spec.KeyGames.blocks salt c (i + 1) l fun rest => k (t.toList ++ rest))
    refine h1.trans ?_
    rw [ih, h2, List.range_succ_eq_map, List.flatMap_cons, List.flatMap_map, Nat.add_zero, iter_toList]
    have e : (List.range (c - 1)).foldl (fun a x => Spec.xorBytes a (Spec.Pbkdf2.U Spec.hmacSha256 password salt (i + 1) (0 + x + 1)))
        (Spec.Pbkdf2.U Spec.hmacSha256 password salt (i + 1) 0) = Spec.Pbkdf2.F Spec.hmacSha256 password salt c (i + 1) := by
      simp only [Nat.zero_add]
      rfl
    rw [e]
    simp only [Nat.succ_eq_add_one, Nat.add_comm, Nat.add_left_comm]

/-- The attacker against the program is the distinguisher against HMAC. -/
theorem real_eq {p : Program} (hp : IsProgram Files.lib sources p) (T : Target) (fuel depth : Nat) (hd : 8 ≤ depth) (password : List U8)
    (hP : 8 * password.length < 2 ^ T.bits) (a : Attacker) (used : List (List U8)) (n : Nat) (ha : a.Within (Possible T) used n) :
    real (kdf p T fuel depth password) a = a.reduce.run (Spec.KeyGames.hmac password) := by
  induction a generalizing used n with
  | answer yes => rfl
  | ask salt c len next ih =>
    obtain ⟨hok, -, hc, hlen, -, hw⟩ := ha
    rw [real, Attacker.reduce, run_blocks, kdf_eq hp T fuel depth hd password salt hP c len hok hc hlen, ih _ _ _ (hw _)]
    simp only [Nat.zero_add]
    rfl

theorem within_chain (n j : Nat) (hj : j ≤ n) (u acc : Digest) (k : Digest → Distinguisher) (h : ∀ t, (k t).Within (n - j)) :
    (chain j u acc k).Within n := by
  induction j generalizing n u acc with
  | zero => exact h _
  | succ j ih =>
    exact ⟨by omega, fun y => ih (n - 1) (by omega) _ _ fun t => by rw [show n - 1 - j = n - (j + 1) by omega]; exact h t⟩

theorem within_blocks (salt : List U8) (c : Nat) (hc : 1 ≤ c) (n i l : Nat) (hl : c * l ≤ n) (k : List U8 → Distinguisher)
    (h : ∀ t, (k t).Within (n - c * l)) : (Spec.KeyGames.blocks salt c i l k).Within n := by
  induction l generalizing n i k with
  | zero => exact h _
  | succ l ih =>
    rw [Nat.mul_add] at hl h
    exact ⟨by omega, fun u => within_chain _ _ (by omega) _ _ _ fun t => ih _ _ (by omega) _ fun rest => by
      rw [show n - 1 - (c - 1) - c * l = n - (c * l + c * 1) by omega]; exact h _⟩

/-- **C91.** The reduction asks for as many values of the function as the attacker asks for iterations. -/
theorem C91_queries (ok : List U8 → Nat → Nat → Prop) (a : Attacker) (used : List (List U8)) (n : Nat) (ha : a.Within ok used n) :
    a.reduce.Within n := by
  induction a generalizing used n with
  | answer yes => trivial
  | ask salt c len next ih =>
    obtain ⟨-, -, hc, -, hn, hw⟩ := ha
    exact within_blocks salt c hc n 0 _ hn _ fun t => ih _ _ _ (hw _)

/-- **C91.** An attacker has keys derived from a secret password by `pbkdf2_sha256` of the program in the text, and names for each key a new
salt, the number of iterations and the size, after it has seen the earlier keys. The iterations for all blocks of all keys
are at most `n` in total. Its chance to say yes differs from its chance when it is given random keys instead by no more than
`n * (n - 1) / 2 ^ 257` and the advantage of the distinguisher `a.reduce` for HMAC with that password, which has `n` queries. The password is
drawn in any way: `secret x` for a uniformly random `x`. -/
theorem C91_random {p : Program} (hp : IsProgram Files.lib sources p) (T : Target) (fuel depth : Nat) (hd : 8 ≤ depth)
    {α : Type} [Fintype α] (secret : α → List U8) (hs : ∀ x, 8 * (secret x).length < 2 ^ T.bits)
    (a : Attacker) (n : Nat) (ha : a.Within (Possible T) [] n) :
    |(avg fun x => real (kdf p T fuel depth (secret x)) a) - ideal a| ≤ a.reduce.advantage secret + n * (n - 1) / 2 ^ 257 := by
  have h : (avg fun x => real (kdf p T fuel depth (secret x)) a) = avg fun x => a.reduce.run (Spec.KeyGames.hmac (secret x)) :=
    congrArg avg (funext fun x => real_eq hp T fuel depth hd (secret x) (hs x) a [] n ha)
  rw [h, Distinguisher.advantage]
  exact (abs_sub_le _ (a.reduce.random []) _).trans (add_le_add le_rfl (random_keys a n ha))

/-- An attacker that asks for two keys with the same salt and compares them. -/
def twice (salt : List U8) (c : Nat) : Attacker := .ask salt c 32 fun k => .ask salt c 32 fun k' => .answer (k = k')

/-- **C91.** The new salts are needed: an attacker that uses a salt twice says yes always, whatever the password, but with random keys only
with probability `2 ^ -256`. -/
theorem C91_same_salt {p : Program} (T : Target) (fuel depth : Nat) (password salt : List U8) (c : Nat) :
    real (kdf p T fuel depth password) (twice salt c) = 1 ∧ ideal (twice salt c) = 1 / 2 ^ 256 := by
  constructor
  · simp [twice, real]
  · simp only [twice, ideal, decide_eq_true_eq]
    have h (k : Digest) : (avg fun k' : Digest => if k.toList = k'.toList then (1 : ℚ) else 0) = 1 / 2 ^ 256 := by
      have e : (fun k' : Digest => if k.toList = k'.toList then (1 : ℚ) else 0) = fun k' => if k' ∈ ({k} : Finset Digest) then (1 : ℚ) else 0 := by
        funext k'
        simp only [Finset.mem_singleton]
        congr 1
        exact propext ⟨fun h => (List.Vector.toList_injective h).symm, fun h => by rw [h]⟩
      rw [e, avg_mem_card, card_digest, N_eq, Finset.card_singleton]
      norm_num
    rw [show (avg fun k : Digest => avg fun k' : Digest => if k.toList = k'.toList then (1 : ℚ) else 0) = avg fun _ : Digest => (1 : ℚ) / 2 ^ 256 from
      congrArg avg (funext h), avg_const]

/-- An attacker that meets the hypotheses: it asks for a key of 40 octets with 1000 iterations, then for one with 2000 iterations and a salt
that contains part of the first key. The second salt with a block number is as long as the iterated values are. -/
def example_ : Attacker := .ask [1] 1000 40 fun k => .ask (2 :: k.take 27) 2000 64 fun k' => .answer (k.head? = k'.head?)

theorem example_within (T : Target) : example_.Within (Possible T) [] 6000 := by
  have hT : 2 ^ 31 - 1 ≤ T.isizeMax := by rcases T.bits_cases with h | h <;> simp [Target.isizeMax, h]
  have hB : 2 ^ 32 ≤ 2 ^ T.bits := by rcases T.bits_cases with h | h <;> simp [h]
  refine ⟨⟨by simp; omega, by omega⟩, by simp, by decide, by decide, by decide, fun k => ⟨⟨?_, by omega⟩, ?_, by decide, by decide,
    by decide, fun _ => trivial⟩⟩
  · simp only [List.length_cons, List.length_take]
    omega
  · simp

/-- The theorems applied to that attacker and a random password of 16 octets. -/
example (T : Target) := C91_random C86_text.1 T 0 8 le_rfl (fun x : List.Vector U8 16 => x.toList)
  (fun x => by have := T.two_pow_ge; simp only [List.Vector.toList_length]; omega) example_ 6000 (example_within T)

example (T : Target) := C91_queries _ example_ [] 6000 (example_within T)

end Verif.Props.DerivedKeys
