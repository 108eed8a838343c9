import Verif.Props.Locked
import Verif.Proof.SaltGames

/-!
Property C106: many salts under one password. As in C100, but every box has a salt of its own choice: the keys of a box are derived from the
password and the salt of the box.
-/

namespace Verif.Props.ManySalts
open Verif Verif.Source Verif.Text Verif.Props.Source Verif.Props.FromText Verif.Props.Sealed Verif.Props.Locked Spec.SaltGames
open Spec.SealGames (reply)
open Spec.Games (avg avg_const avg_mono avg_comm avg_add avg_close Block)

attribute [local irreducible] avg

/-- What a `Cipher`, a `Decipher` and an `HMac` make of the octets derived for a box: the first `k` octets are the key of the `Cipher`. -/
def boxes (p : Program) (T : Target) (fuel depth k : Nat) : Boxes where
  enc dk := encrypted p T fuel depth (cipherKey k dk)
  mac dk := tag p T fuel depth (macKey k dk)
  dec dk := decrypted p T fuel depth (cipherKey k dk)

/-- A salt that the derivation of keys takes. -/
def Salt (T : Target) (salt : List U8) : Prop := 8 * (64 + salt.length + 4) < 2 ^ T.bits

/-- The chance of an attacker when the keys are derived by `pbkdf2_sha256` with `c` iterations. The password is drawn in any way: `secret x` for
a uniformly random `x`. -/
def locked (p : Program) (T : Target) (fuel depth k : Nat) {α : Type} [Fintype α] (secret : α → List U8) (c : Nat) (right : Bool)
    (a : Attacker) : ℚ :=
  avg fun x => real (boxes p T fuel depth k) (fun salt => DerivedKeys.kdf p T fuel depth (secret x) salt c (k + 32)) right [] a

/-- The chance of an attacker when the keys are derived by a `Scrypt`. -/
def scryptLocked (p : Program) (T : Target) (fuel depth k : Nat) {α : Type} [Fintype α] (secret : α → List U8) (P : Spec.ScryptGames.Params)
    (right : Bool) (a : Attacker) : ℚ :=
  avg fun x => real (boxes p T fuel depth k) (fun salt => ScryptKeys.kdf p T fuel depth P (secret x) salt (k + 32)) right [] a

/-- How well HMAC with the password is told from a random function by the distinguishers that come from an attacker, in the mean over the
initialization vectors of the `q` boxes sealed. -/
noncomputable def guessing (p : Program) (T : Target) (fuel depth k q : Nat) {α : Type} [Fintype α] (secret : α → List U8) (c : Nat)
    (right : Bool) (a : Attacker) : ℚ :=
  avg fun ivs : List.Vector Block q =>
    ((a.asker (boxes p T fuel depth k) (k + 32) right ivs.toList [] [] []).pbkdf2 c (k + 32)).reduce.advantage secret

/-- The same for scrypt. -/
noncomputable def scryptGuessing (p : Program) (T : Target) (fuel depth k q : Nat) {α : Type} [Fintype α] (secret : α → List U8)
    (P : Spec.ScryptGames.Params) (right : Bool) (a : Attacker) : ℚ :=
  avg fun ivs : List.Vector Block q =>
    (((a.asker (boxes p T fuel depth k) (k + 32) right ivs.toList [] [] []).scrypt (k + 32)).reduce P).advantage secret

/-- The bound of C99 for random keys, for the attackers on the boxes with one of the salts, summed over the salts; each is a mean over the
keys of the other salts and the initialization vectors of their boxes. -/
noncomputable def withRandomKeys (p : Program) (T : Target) (fuel depth k n q v : Nat) (a : Attacker) : ℚ :=
  ∑ j ∈ Finset.range (q + v), avg fun dks : List.Vector (List.Vector U8 (k + 32)) (q + v) => avg fun ivs : List.Vector Block q =>
    Locked.withRandomKeys p T fuel depth k n q v (a.focus (boxes p T fuel depth k) j (nth (k + 32) dks.toList) ivs.toList [] [])

section
variable {p : Program} (hp : IsProgram Files.lib sources p)
include hp

theorem sized (T : Target) (fuel depth : Nat) (hf : 65 ≤ fuel) (hd : 8 ≤ depth) (k : Nat) (hk : k = 16 ∨ k = 24 ∨ k = 32) :
    (boxes p T fuel depth k).Sized (k + 32) (Sealable T) := by
  intro dk hdk iv m hm
  have hT := T.two_pow_ge
  have h1 : (cipherKey k dk).length = k := by rw [cipherKey, List.length_take]; omega
  have h2 : (macKey k dk).length = 32 := by rw [macKey, List.length_drop]; omega
  have hl := encrypted_length hp T fuel depth hf hd (cipherKey k dk) (by rw [h1]; exact hk) iv m hm
  refine ⟨hl, ?_⟩
  show (tag p T fuel depth (macKey k dk) iv (encrypted p T fuel depth (cipherKey k dk) iv m)).length = 32
  rw [tag, Forgery.mac_eq hp T fuel depth hd _ (by rw [h2]; omega)]
  · simp
  · rw [Forgery.Possible]
    unfold Sealable at hm
    simp only [List.flatten_cons, List.flatten_nil, List.append_nil, List.length_append, List.Vector.toList_length, hl]
    omega

theorem random_close (T : Target) (fuel depth : Nat) (hf : 65 ≤ fuel) (hd : 8 ≤ depth) (k : Nat) (hk : k = 16 ∨ k = 24 ∨ k = 32)
    {okS : List U8 → Prop} (a : Attacker) (n q v : Nat) (ha : a.Within okS (Sealable T) (Checkable T) n q v) :
    |(avg fun ivs : List.Vector Block q => (a.asker (boxes p T fuel depth k) (k + 32) false ivs.toList [] [] []).ideal (k + 32)) -
      avg fun ivs : List.Vector Block q => (a.asker (boxes p T fuel depth k) (k + 32) true ivs.toList [] [] []).ideal (k + 32)| ≤
      withRandomKeys p T fuel depth k n q v a := by
  have hT := T.two_pow_ge
  have hB := sized hp T fuel depth hf hd k hk
  have h1 (right : Bool) := ideal_asker right hB a n q v (q + v) ha le_rfl [] [] rfl []
  simp only [List.map_nil, List.nil_append] at h1
  rw [h1, h1]
  refine (sides_close hB a n q v ha).trans (Finset.sum_le_sum fun j _ => avg_mono fun dks => avg_mono fun ivs => ?_)
  have h2 (right : Bool) := played_random (p := p) T fuel depth k right
    (a.focus (boxes p T fuel depth k) j (nth (k + 32) dks.toList) ivs.toList [] [])
  have h3 := C99_sealed hp T fuel depth hf hd k hk (fun x : List.Vector U8 32 => x.toList)
    (fun x => by simp only [List.Vector.toList_length]; omega) _ n q v
    (focus_within j (nth (k + 32) dks.toList) (nth_length _) hB a n q v ha ivs.toList [] [])
  rw [← Locked.withRandomKeys, ← h2, ← h2] at h3
  exact h3

theorem locked_close (T : Target) (fuel depth : Nat) (hf : 65 ≤ fuel) (hd : 8 ≤ depth) (k : Nat) (hk : k = 16 ∨ k = 24 ∨ k = 32)
    {α : Type} [Fintype α] (secret : α → List U8) (hs : ∀ x, 8 * (secret x).length < 2 ^ T.bits) (c : Nat) (hc : 1 ≤ c)
    (a : Attacker) (n q v : Nat) (ha : a.Within (Salt T) (Sealable T) (Checkable T) n q v) (right : Bool) :
    |locked p T fuel depth k secret c right a -
      avg fun ivs : List.Vector Block q => (a.asker (boxes p T fuel depth k) (k + 32) right ivs.toList [] [] []).ideal (k + 32)| ≤
      guessing p T fuel depth k q secret c right a + (2 * c * (q + v) : ℕ) * ((2 * c * (q + v) : ℕ) - 1) / 2 ^ 257 := by
  have hT := T.two_pow_ge
  have hb := bits_isize T
  have hB := sized hp T fuel depth hf hd k hk
  have hok (salt : List U8) (h : Salt T salt) : DerivedKeys.Possible T salt c (k + 32) := ⟨h, by omega⟩
  have h1 : locked p T fuel depth k secret c right a = avg fun ivs : List.Vector Block q => avg fun x =>
      Spec.KeyGames.real (DerivedKeys.kdf p T fuel depth (secret x))
        ((a.asker (boxes p T fuel depth k) (k + 32) right ivs.toList [] [] []).pbkdf2 c (k + 32)) := by
    simp only [real_pbkdf2]
    rw [avg_comm, locked]
    exact congrArg avg (funext fun x => real_eq_asker right hB _
      (fun salt h => kdf_length hp T fuel depth hd _ _ (hs x) c _ (hok salt h) hc (by omega)) a n q v ha [] [])
  simp only [← ideal_pbkdf2 c]
  rw [h1]
  have h3 (ivs : List.Vector Block q) := DerivedKeys.C91_random hp T fuel depth hd secret hs
    ((a.asker (boxes p T fuel depth k) (k + 32) right ivs.toList [] [] []).pbkdf2 c (k + 32)) (c * Spec.KeyGames.count (k + 32) * (q + v))
    (within_pbkdf2 c (k + 32) hc (by omega) _ _ _ (Asker.Within.imp hok _ _ _ (asker_within right hB a n q v ha ivs.toList [] [] rfl
      (fun _ h => absurd h List.not_mem_nil) [] [] (fun _ h => absurd h List.not_mem_nil))))
  have h4 := avg_close _ h3
  rw [avg_add, avg_const, count_dk k hk, Nat.mul_comm c 2] at h4
  rw [guessing]
  exact h4

/-- **C106.** Many salts under one password: an attacker who has messages sealed and boxes opened with salts of its choice does not find out the
side. The bound has the sum over the salts of the bounds of C99, and the advantages of distinguishers, made from the attacker, of HMAC with the
password from a random function; there are at most `N = 2 * c * (q + v)` iterations. -/
theorem C106_pbkdf2 (T : Target) (fuel depth : Nat) (hf : 65 ≤ fuel) (hd : 8 ≤ depth) (k : Nat) (hk : k = 16 ∨ k = 24 ∨ k = 32)
    {α : Type} [Fintype α] (secret : α → List U8) (hs : ∀ x, 8 * (secret x).length < 2 ^ T.bits) (c : Nat) (hc : 1 ≤ c)
    (a : Attacker) (n q v N : Nat) (ha : a.Within (Salt T) (Sealable T) (Checkable T) n q v) (hN : N = 2 * c * (q + v)) :
    |locked p T fuel depth k secret c false a - locked p T fuel depth k secret c true a| ≤
      guessing p T fuel depth k q secret c false a + guessing p T fuel depth k q secret c true a + N * (N - 1) / 2 ^ 256 +
      withRandomKeys p T fuel depth k n q v a := by
  have h1 := locked_close hp T fuel depth hf hd k hk secret hs c hc a n q v ha false
  have h2 := locked_close hp T fuel depth hf hd k hk secret hs c hc a n q v ha true
  have h3 := random_close hp T fuel depth hf hd k hk a n q v ha
  rw [← hN] at h1 h2
  have e' : (2 : ℚ) ^ 257 = 2 ^ 256 * 2 := pow_succ 2 256
  have e : (N * (N - 1) / 2 ^ 256 : ℚ) = N * (N - 1) / 2 ^ 257 + N * (N - 1) / 2 ^ 257 := by
    rw [e']
    ring
  rw [e]
  rw [abs_le] at *
  constructor <;> linarith [h1.1, h1.2, h2.1, h2.2, h3.1, h3.2]

theorem scrypt_close (T : Target) (fuel depth : Nat) (hf : 65 ≤ fuel) (hd : 8 ≤ depth) (k : Nat) (hk : k = 16 ∨ k = 24 ∨ k = 32)
    {α : Type} [Fintype α] [Nonempty α] (secret : α → List U8) (hs : ∀ x, 8 * (secret x).length < 2 ^ T.bits)
    (P : Spec.ScryptGames.Params) (hU : ScryptKeys.Usable T P) {okS : List U8 → Prop} (hokS : ∀ salt, okS salt → Salt T salt)
    (a : Attacker) (n q v : Nat) (ha : a.Within okS (Sealable T) (Checkable T) n q v) (right : Bool) (e : ℚ)
    (h3 : ∀ a : Spec.ScryptGames.Attacker, a.Within P (fun salt len => ScryptKeys.Possible T salt len ∧ okS salt) [] (q + v) →
      |(avg fun x => Spec.ScryptGames.real (ScryptKeys.kdf p T fuel depth P (secret x)) a) - Spec.ScryptGames.ideal a| ≤
        (a.reduce P).advantage secret + e) :
    |scryptLocked p T fuel depth k secret P right a -
      avg fun ivs : List.Vector Block q => (a.asker (boxes p T fuel depth k) (k + 32) right ivs.toList [] [] []).ideal (k + 32)| ≤
      scryptGuessing p T fuel depth k q secret P right a + e := by
  have hT := T.two_pow_ge
  have hb := bits_isize T
  have hB := sized hp T fuel depth hf hd k hk
  have hok (salt : List U8) (h : okS salt) : ScryptKeys.Possible T salt (k + 32) ∧ okS salt := ⟨⟨hokS salt h, by omega⟩, h⟩
  have h1 : scryptLocked p T fuel depth k secret P right a = avg fun ivs : List.Vector Block q => avg fun x =>
      Spec.ScryptGames.real (ScryptKeys.kdf p T fuel depth P (secret x))
        ((a.asker (boxes p T fuel depth k) (k + 32) right ivs.toList [] [] []).scrypt (k + 32)) := by
    simp only [real_scrypt]
    rw [avg_comm, scryptLocked]
    exact congrArg avg (funext fun x => real_eq_asker right hB _
      (fun salt h => scrypt_kdf_length hp T fuel depth hd P hU _ _ (hs x) _ (hok salt h).1) a n q v ha [] [])
  simp only [← ideal_scrypt]
  rw [h1]
  have h4 := avg_close _ fun ivs : List.Vector Block q =>
    h3 ((a.asker (boxes p T fuel depth k) (k + 32) right ivs.toList [] [] []).scrypt (k + 32))
    (within_scrypt P (k + 32) (by omega) _ _ _ (Asker.Within.imp hok _ _ _ (asker_within right hB a n q v ha ivs.toList [] [] rfl
      (fun _ h => absurd h List.not_mem_nil) [] [] (fun _ h => absurd h List.not_mem_nil))))
  rw [avg_add, avg_const] at h4
  rw [scryptGuessing]
  exact h4

/-- **C106.** The same with keys derived by a `Scrypt`; instead of the iterations, the largest probability counts that scrypt's mixing function has
one particular value on random input. -/
theorem C106_scrypt (T : Target) (fuel depth : Nat) (hf : 65 ≤ fuel) (hd : 8 ≤ depth) (k : Nat) (hk : k = 16 ∨ k = 24 ∨ k = 32)
    {α : Type} [Fintype α] [Nonempty α] (secret : α → List U8) (hs : ∀ x, 8 * (secret x).length < 2 ^ T.bits)
    (P : Spec.ScryptGames.Params) (hU : ScryptKeys.Usable T P)
    (a : Attacker) (n q v s : Nat) (ha : a.Within (Salt T) (Sealable T) (Checkable T) n q v) (hs' : s = q + v) :
    |scryptLocked p T fuel depth k secret P false a - scryptLocked p T fuel depth k secret P true a| ≤
      scryptGuessing p T fuel depth k q secret P false a + scryptGuessing p T fuel depth k q secret P true a + s * (3 * s - 1) * P.share +
      withRandomKeys p T fuel depth k n q v a := by
  have h0 (a : Spec.ScryptGames.Attacker) (ha : a.Within P (fun salt len => ScryptKeys.Possible T salt len ∧ Salt T salt) [] (q + v)) :=
    ScryptKeys.C93_random hp T fuel depth hd P hU secret hs a (q + v) (scrypt_imp P (fun _ _ h => h.1) a [] (q + v) ha)
  have h1 := scrypt_close hp T fuel depth hf hd k hk secret hs P hU (fun _ h => h) a n q v ha false _ h0
  have h2 := scrypt_close hp T fuel depth hf hd k hk secret hs P hU (fun _ h => h) a n q v ha true _ h0
  have h3 := random_close hp T fuel depth hf hd k hk a n q v ha
  rw [← hs'] at h1 h2
  have e : (s * (3 * s - 1) * P.share : ℚ) = s * (3 * s - 1) / 2 * P.share + s * (3 * s - 1) / 2 * P.share := by ring
  rw [e]
  rw [abs_le] at *
  constructor <;> linarith [h1.1, h1.2, h2.1, h2.2, h3.1, h3.2]

/-- **C106.** With salts that are not of `p * 128 * r` octets less of it counts. -/
theorem C106_sizes (T : Target) (fuel depth : Nat) (hf : 65 ≤ fuel) (hd : 8 ≤ depth) (k : Nat) (hk : k = 16 ∨ k = 24 ∨ k = 32)
    {α : Type} [Fintype α] [Nonempty α] (secret : α → List U8) (hs : ∀ x, 8 * (secret x).length < 2 ^ T.bits)
    (P : Spec.ScryptGames.Params) (hU : ScryptKeys.Usable T P) (a : Attacker) (n q v s : Nat)
    (ha : a.Within (fun salt => Salt T salt ∧ salt.length ≠ P.p * 128 * P.r) (Sealable T) (Checkable T) n q v) (hs' : s = q + v) :
    |scryptLocked p T fuel depth k secret P false a - scryptLocked p T fuel depth k secret P true a| ≤
      scryptGuessing p T fuel depth k q secret P false a + scryptGuessing p T fuel depth k q secret P true a + s * (s - 1) * P.share +
      withRandomKeys p T fuel depth k n q v a := by
  have h0 (a : Spec.ScryptGames.Attacker)
      (ha : a.Within P (fun salt len => ScryptKeys.Possible T salt len ∧ Salt T salt ∧ salt.length ≠ P.p * 128 * P.r) [] (q + v)) :=
    ScryptKeys.C93_sizes hp T fuel depth hd P hU secret hs a (q + v) (scrypt_imp P (fun _ _ h => ⟨h.1, h.2.2⟩) a [] (q + v) ha)
  have h1 := scrypt_close hp T fuel depth hf hd k hk secret hs P hU (fun _ h => h.1) a n q v ha false _ h0
  have h2 := scrypt_close hp T fuel depth hf hd k hk secret hs P hU (fun _ h => h.1) a n q v ha true _ h0
  have h3 := random_close hp T fuel depth hf hd k hk a n q v ha
  rw [← hs'] at h1 h2
  have e : (s * (s - 1) * P.share : ℚ) = s * (s - 1) / 2 * P.share + s * (s - 1) / 2 * P.share := by ring
  rw [e]
  rw [abs_le] at *
  constructor <;> linarith [h1.1, h1.2, h2.1, h2.2, h3.1, h3.2]

/-- An attacker that has one message sealed with a salt, and submits the box with another salt. -/
def swap (s₁ s₂ l r : List U8) : Attacker := .send s₁ l r fun iv c t => .submit s₂ iv c t fun reply => .answer (reply = .message l)

omit hp in
theorem swap_within (T : Target) (s₁ s₂ l r : List U8) (h₁ : Salt T s₁) (h₂ : Salt T s₂) (hl : Sealable T l) (hr : Sealable T r)
    (hlr : l.length = r.length) : (swap s₁ s₂ l r).Within (Salt T) (Sealable T) (Checkable T) (l.length / 16 + 1) 1 1 := by
  refine ⟨h₁, hl, hr, by rw [hlr], le_rfl, le_rfl, fun iv c tag hc _ => ⟨h₂, ?_, le_rfl, fun _ => trivial⟩⟩
  unfold Sealable at hl
  unfold Checkable
  rw [hc, Spec.SealGames.ciphertextSize]
  omega

/-- The hypotheses are met: both bounds for an attacker that moves a box to another salt, on one of two passwords. -/
example (T : Target) : ∃ secret : Bool → List U8, ∃ a : Attacker,
    |locked p T 65 8 32 secret 4096 false a - locked p T 65 8 32 secret 4096 true a| ≤
      guessing p T 65 8 32 1 secret 4096 false a + guessing p T 65 8 32 1 secret 4096 true a + (16384 : ℕ) * ((16384 : ℕ) - 1) / 2 ^ 256 +
      withRandomKeys p T 65 8 32 1 1 1 a ∧
    |scryptLocked p T 65 8 32 secret ⟨8, 1024, 16⟩ false a - scryptLocked p T 65 8 32 secret ⟨8, 1024, 16⟩ true a| ≤
      scryptGuessing p T 65 8 32 1 secret ⟨8, 1024, 16⟩ false a + scryptGuessing p T 65 8 32 1 secret ⟨8, 1024, 16⟩ true a +
      (2 : ℕ) * (3 * (2 : ℕ) - 1) * Spec.ScryptGames.Params.share ⟨8, 1024, 16⟩ + withRandomKeys p T 65 8 32 1 1 1 a := by
  have hT : 2 ^ 31 - 1 ≤ T.isizeMax := by rcases T.bits_cases with h | h <;> simp [Target.isizeMax, h]
  have hV : T.vecSize ≤ 24 := by rw [Target.vecSize]; rcases T.bits_cases with h | h <;> simp [h]
  have hB : 2 ^ 32 ≤ 2 ^ T.bits := by rcases T.bits_cases with h | h <;> simp [h]
  have hU : ScryptKeys.Usable T ⟨8, 1024, 16⟩ := by
    refine ⟨by decide, ⟨10, rfl⟩, by decide, ?_, ?_, ?_, by decide⟩
    · show 16 * 128 * 8 ≤ _; omega
    · show 1024 * _ ≤ _; omega
    · show 8 * (64 + 16 * 128 * 8 + 4) < _; omega
  have ha := swap_within T [1, 2, 3, 4, 5, 6, 7, 8] [] [0x79, 0x65, 0x73] [0x6e, 0x6f, 0x21] (by simp [Salt]; omega) (by simp [Salt]; omega)
    (by simp [Sealable]; omega) (by simp [Sealable]; omega) rfl
  have hs (x : Bool) : 8 * (if x then [0x61] else ([0x62, 0x63] : List U8)).length < 2 ^ T.bits := by cases x <;> simp <;> omega
  exact ⟨_, _, C106_pbkdf2 hp T 65 8 le_rfl le_rfl 32 (by simp) _ hs 4096 (by decide) _ 1 1 1 16384 ha rfl,
    C106_scrypt hp T 65 8 le_rfl le_rfl 32 (by simp) _ hs _ hU _ 1 1 1 2 ha rfl⟩

end

end Verif.Props.ManySalts
