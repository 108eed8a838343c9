import Verif.Props.Trail
import Verif.Props.HmacCollision
import Verif.Proof.Linear

/-!
C119: no linear equation between the bits of a block, of its encryption and of the round keys is true much more or less often than half
of the time.
-/

set_option linter.constructorNameAsVariable false

namespace Verif.Props.Linear
open Verif Verif.Aes Verif.Source Verif.Linear Verif.Props.SideChannel Verif.Props.ConstantTime Verif.Props.Diffusion Verif.Props.Trail
  Spec.Aes

/-! ### Statements -/

/-- `c` is what `encrypt` returns for `p` if the object has these round keys (`andLast` of `Verif/Props/Trail.lean`). -/
def Encrypts (T : Target) (fuel depth : Nat) {n : Nat} (k : Fin n → State) (last : State) (p c : Vector U8 16) : Prop :=
  call T crate fuel depth .aes_AES_encrypt [encAES ⟨n, some (asWords (n + 1) (andLast k last))⟩, bytes p.toList] =
    .ok (encRes encAESError (fun b => bytes b.toList) (.ok c), [])

/-! ### The program -/

theorem cipher_eq (m : Nat) (k : Nat → State) (inp : List U8) :
    cipher (m + 1) (fun j r => k (j / 4) r (Fin.ofNat 4 j)) inp = store (ciphertext m k (k (m + 1)) (load inp)) := by
  have hw (round : Nat) (s : State) : addRoundKey (fun j r => k (j / 4) r (Fin.ofNat 4 j)) round s = xorState s (k round) := by
    funext r c
    show s r c ^^^ k ((4 * round + c) / 4) r (Fin.ofNat 4 (4 * round + c)) = s r c ^^^ k round r c
    rw [show (4 * round + c.val) / 4 = round by omega,
      show Fin.ofNat 4 (4 * round + c) = c from Fin.ext (by show (4 * round + c.val) % 4 = c.val; omega)]
  have hr (i : Nat) : rounds (fun j r => k (j / 4) r (Fin.ofNat 4 j)) i (xorState (load inp) (k 0)) = before k (load inp) i := by
    induction i with
    | zero => rfl
    | succ i ih => rw [rounds, ih, hw, before]
  rw [cipher, hw, hw, Nat.add_sub_cancel, hr, ciphertext]

theorem encrypts_iff (T : Target) (F d m : Nat) (hm : m + 1 ≤ 14) (k : Fin (m + 1) → State) (last : State) (p : Vector U8 16) :
    ∃ c, Encrypts T (F + 65) (d + 5) k last p c ∧ load c.toList = ciphertext m (fun j => k (Fin.ofNat (m + 1) j)) last (load p.toList) := by
  obtain ⟨o, h1, h2⟩ := encrypt_ok ⟨m + 1, some (asWords (m + 1 + 1) (andLast k last))⟩ _
    (fun j r => andLast k last (j / 4) r (Fin.ofNat 4 j)) rfl (asWords_get _ _) (by rw [asWords_length]) (by simp) p
  refine ⟨o, ?_, ?_⟩
  · rw [Encrypts, src_AES_encrypt T F d _ p hm, h1]
    rfl
  · rw [h2]
    simp only
    rw [cipher_eq, load_store, ciphertext, ciphertext]
    have e1 : andLast k last (m + 1) = last := by rw [andLast, dif_neg (by omega)]
    have e2 : before (andLast k last) (load p.toList) m = before (fun j => k (Fin.ofNat (m + 1) j)) (load p.toList) m := by
      refine Trail.before_congr _ (fun j hj => ?_) _
      rw [andLast, dif_pos (by omega)]
      congr 1
      exact Fin.ext (Nat.mod_eq_of_lt (by omega)).symm
    rw [e1, e2]

/-! ### The claims -/

open Classical in
/-- **C119.** A linear function of a byte and one of its image under the S-box, not both zero, are equal for 112 to 144 of the 256
bytes. -/
theorem C119_sbox (f g : Spec.Byte → Bool) (hf : LinearByte f) (hg : LinearByte g) (h : (∃ x, f x = true) ∨ ∃ x, g x = true) :
    112 ≤ (Finset.univ.filter fun x => f x = g (sbox x)).card ∧ (Finset.univ.filter fun x => f x = g (sbox x)).card ≤ 144 := by
  obtain ⟨u, rfl⟩ := exists_pair f hf
  obtain ⟨v, rfl⟩ := exists_pair g hg
  have h8 : |corr u v| ≤ 1 / 8 := by
    refine (corr_le u v).trans ?_
    have hne : ¬ (u = 0 ∧ v = 0) := by
      rintro ⟨rfl, rfl⟩
      rcases h with ⟨x, hx⟩ | ⟨x, hx⟩ <;> rw [zero_pair] at hx <;> exact absurd hx (by decide)
    split
    · next hu =>
      rw [if_neg fun hv => hne ⟨hu, hv⟩]
      norm_num
    · split <;> norm_num
  have e : corr u v = (2 * (Finset.univ.filter fun x => pair u x = pair v (sbox x)).card - 256) / 256 := by
    rw [corr, Spec.Games.avg, Trail.card_byte]
    have h1 (x : Spec.Byte) : sg (pair u x ^^ pair v (sbox x)) = 2 * (if pair u x = pair v (sbox x) then 1 else 0) - 1 := by
      cases pair u x <;> cases pair v (sbox x) <;> simp [sg] <;> norm_num
    rw [Finset.sum_congr rfl fun x _ => h1 x, Finset.sum_sub_distrib, ← Finset.mul_sum, Finset.sum_boole, Finset.sum_const,
      Finset.card_univ, Trail.card_byte]
    norm_num
  rw [e, abs_le] at h8
  constructor
  · have : (112 : ℚ) ≤ (Finset.univ.filter fun x => pair u x = pair v (sbox x)).card := by linarith [h8.1]
    exact_mod_cast this
  · have : ((Finset.univ.filter fun x => pair u x = pair v (sbox x)).card : ℚ) ≤ 144 := by linarith [h8.2]
    exact_mod_cast this

/-- **C119.** AES of `n + 1` rounds with random round keys: the chance of a linear equation between the bits of the encryption of a
block and the bits of the round keys differs from one half by at most 2^-76 for every four rounds. This is so for every block. Only the
equation in which nothing occurs is left out. -/
theorem C119_rounds (n : Nat) (out : State → Bool) (f : Fin (n + 1) → State → Bool) (g : State → Bool) (value : Bool) (p : State)
    (ho : Linear out) (hf : ∀ i, Linear (f i)) (hg : Linear g)
    (hn : ¬ ((∀ s, out s = false) ∧ (∀ i s, f i s = false) ∧ ∀ s, g s = false)) :
    |chanceOf n out f g value p - 1 / 2| ≤ 1 / 2 ^ (75 * ((n + 1) / 4) + 1) := by
  refine (chanceOf_le n out f g value p ho hf hg hn).trans (one_div_le_one_div_of_le (by positivity) ?_)
  exact pow_le_pow_right₀ (by norm_num) (by omega)

/-- **C119.** `encrypt` does return something, for all round keys. -/
theorem C119_returns (T : Target) (fuel depth : Nat) (hf : 65 ≤ fuel) (hd : 5 ≤ depth) (n : Nat) (hn : n = 10 ∨ n = 12 ∨ n = 14)
    (p : Vector U8 16) : ∃ c : (Fin n → State) → State → Vector U8 16, ∀ k last, Encrypts T fuel depth k last p (c k last) := by
  obtain ⟨F, rfl⟩ := Nat.exists_eq_add_of_le' hf
  obtain ⟨d, rfl⟩ := Nat.exists_eq_add_of_le' hd
  obtain ⟨m, rfl⟩ : ∃ m, n = m + 1 := ⟨n - 1, by omega⟩
  choose c hc _ using fun k last => encrypts_iff T F d m (by omega) k last p
  exact ⟨c, hc⟩

/-- **C119.** The program with random round keys: the chance that a linear equation between the bits of what `encrypt` returns and
the bits of the round keys is true differs from one half by at most 2^-166 with 10 rounds, 2^-226 with 12 and 2^-241 with 14. -/
theorem C119_program (T : Target) (fuel depth : Nat) (hf : 65 ≤ fuel) (hd : 5 ≤ depth) (n : Nat) (p : Vector U8 16)
    (c : (Fin n → State) → State → Vector U8 16) (hc : ∀ k last, Encrypts T fuel depth k last p (c k last))
    (out : State → Bool) (f : Fin n → State → Bool) (g : State → Bool) (value : Bool) (ho : Linear out) (hl : ∀ i, Linear (f i))
    (hg : Linear g) (hn : ¬ ((∀ s, out s = false) ∧ (∀ i s, f i s = false) ∧ ∀ s, g s = false))
    (bits : Nat) (hb : (n, bits) ∈ [(10, 166), (12, 226), (14, 241)]) :
    |(Spec.Games.avg fun k : Fin n → State => Spec.Games.avg fun last : State =>
      if (out (load (c k last).toList) ^^ keyBits f k ^^ g last) = value then (1 : ℚ) else 0) - 1 / 2| ≤ 1 / 2 ^ bits := by
  obtain ⟨F, rfl⟩ := Nat.exists_eq_add_of_le' hf
  obtain ⟨d, rfl⟩ := Nat.exists_eq_add_of_le' hd
  obtain ⟨m, rfl⟩ : ∃ m, n = m + 1 := by
    simp at hb
    exact ⟨n - 1, by omega⟩
  have hb' : m + 1 ≤ 14 ∧ bits ≤ 3 * (25 * ((m + 1) / 4) + 5 * ((m + 1) % 4 / 2) + (m + 1) % 2) + 1 := by
    simp at hb
    omega
  have e (k last) : load (c k last).toList = ciphertext m (fun j => k (Fin.ofNat (m + 1) j)) last (load p.toList) := by
    obtain ⟨c', h1, h2⟩ := encrypts_iff T F d m hb'.1 k last p
    have h3 := (hc k last).symm.trans h1
    have : c k last = c' := by
      simp only [encRes, Except.ok.injEq, Prod.mk.injEq, Val.enum.injEq, List.cons.injEq, and_true, true_and] at h3
      exact Vector.toList_inj.1 (HmacCollision.bytes_inj h3)
    rw [this, h2]
  simp only [e]
  refine (chanceOf_le m out f g value (load p.toList) ho hl hg hn).trans (one_div_le_one_div_of_le (by positivity) ?_)
  exact pow_le_pow_right₀ (by norm_num) hb'.2

/-- **C119.** With the round keys that `init` makes of a key, `encrypt` carries out the same rounds. -/
theorem C119_keys (T : Target) (self self' : AES) (key : List U8) (h : self.init T key = .ok (self', .ok ())) (b : Vector U8 16) :
    ∃ o, self'.encrypt b = .ok (.ok o) ∧
      load o.toList = ciphertext (key.length / 4 + 5) (roundKey key) (roundKey key (key.length / 4 + 6)) (load b.toList) := by
  obtain ⟨o, h1, h2⟩ := Props.Aes.C22_aes_encrypt T self self' key h b
  refine ⟨o, h1, ?_⟩
  have : keyWord (key.length / 4) key = fun j r => roundKey key (j / 4) r (Fin.ofNat 4 j) := by
    funext j r
    show keyWord (key.length / 4) key j r = keyWord (key.length / 4) key (4 * (j / 4) + j % 4) r
    rw [Nat.div_add_mod]
  rw [h2, Spec.Aes.encrypt, this, cipher_eq, load_store]

/-- The bits of a byte are linear functions. -/
theorem bit_linear (i : Nat) : LinearByte fun x => x.getLsbD i := fun _ _ => BitVec.getLsbD_xor

theorem bit_linear_state (r c : Fin 4) (i : Nat) : Linear fun s => (s r c).getLsbD i := fun _ _ => BitVec.getLsbD_xor

theorem none_linear : Linear fun _ => false := fun _ _ => rfl

theorem sbox_count : (List.range 256).countP (fun x => (BitVec.ofNat 8 x).getLsbD 6 == ((SBOX[x]?).getD 0).getLsbD 3) = 144 := by
  decide +kernel

/-- The figures for the S-box are not too wide: one bit of a byte is equal to one bit of its image for 144 bytes. -/
example : (List.range 256).countP (fun x => (BitVec.ofNat 8 x).getLsbD 6 == (sbox (BitVec.ofNat 8 x)).getLsbD 3) = 144 := by
  rw [← sbox_count]
  refine List.countP_congr fun x hx => ?_
  have hx : x < 256 := List.mem_range.1 hx
  rw [← SBOX_eq]
  simp [Nat.mod_eq_of_lt hx, hx]

/-- The hypotheses of C119 meet concrete values: the first bit of the encryption of a block and the first bit of the first round key. -/
example (T : Target) (p : Vector U8 16) := C119_program T 65 5 (by decide) (by decide) 10 p _
  (C119_returns T 65 5 (by decide) (by decide) 10 (.inl rfl) p).choose_spec (fun s => (s 0 0).getLsbD 7)
  (fun i s => decide (i = 0) && (s 0 0).getLsbD 7) (fun _ => false) true (bit_linear_state 0 0 7)
  (fun i => by
    by_cases h : i = 0
    · simpa [h] using bit_linear_state 0 0 7
    · simpa [h] using none_linear) none_linear
  (fun h => absurd (h.1 fun _ _ => 0xff) (by decide)) 166 (by decide)

end Verif.Props.Linear
