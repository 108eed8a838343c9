import Verif.Props.Sealed
import Verif.Props.ScryptKeys

/-!
Property C100: messages under a password. Two keys are derived from a password and a salt, by `pbkdf2_sha256` or by a `Scrypt`, one for a `Cipher`
and one for an `HMac`, and messages are encrypted and then authenticated with them, as in C99.
-/

namespace Verif.Props.Locked
open Verif Verif.Source Verif.Text Verif.Props.Source Verif.Props.FromText Verif.Props.Sealed Spec.SealGames
open Spec.Games (avg avg_const avg_mono avg_comm avg_add avg_close avg_vector_append Block)

attribute [local irreducible] avg

/-- The first `k` octets derived are the key of the `Cipher` and the `Decipher`. -/
def cipherKey (k : Nat) (dk : List U8) : List U8 := dk.take k

/-- The others are the key of the `HMac`. -/
def macKey (k : Nat) (dk : List U8) : List U8 := dk.drop k

/-- The chance of an attacker that sees the sealed left messages, or the right ones, when both keys are made of the octets `dk`. -/
def played (p : Program) (T : Target) (fuel depth k : Nat) (dk : List U8) (right : Bool) (a : Attacker) : ℚ :=
  real (encrypted p T fuel depth (cipherKey k dk)) (tag p T fuel depth (macKey k dk)) (decrypted p T fuel depth (cipherKey k dk)) right [] a

/-- What the attacker says, when the initialization vectors are given too. -/
def outcome (p : Program) (T : Target) (fuel depth k : Nat) (ivs : List Block) (right : Bool) (a : Attacker) (dk : List U8) : Bool :=
  a.says (encrypted p T fuel depth (cipherKey k dk)) (tag p T fuel depth (macKey k dk)) (decrypted p T fuel depth (cipherKey k dk)) right ivs []

/-- The attacker as one on the derived octets, which it sees: it makes the keys, plays on both sides and says what the attacker says. -/
def opener (p : Program) (T : Target) (fuel depth k : Nat) (salt : List U8) (c : Nat) (right : Bool) (a : Attacker) (ivs : List Block) :
    Spec.KeyGames.Attacker :=
  .ask salt c (k + 32) fun dk => .answer (outcome p T fuel depth k ivs right a dk)

/-- The same for scrypt. -/
def scryptOpener (p : Program) (T : Target) (fuel depth k : Nat) (salt : List U8) (right : Bool) (a : Attacker) (ivs : List Block) :
    Spec.ScryptGames.Attacker :=
  .ask salt (k + 32) fun dk => .answer (outcome p T fuel depth k ivs right a dk)

theorem count_dk (k : Nat) (hk : k = 16 ∨ k = 24 ∨ k = 32) : Spec.KeyGames.count (k + 32) = 2 := by
  rcases hk with rfl | rfl | rfl <;> rfl

theorem opener_within (p : Program) (T : Target) (fuel depth k : Nat) (hk : k = 16 ∨ k = 24 ∨ k = 32) (salt : List U8) (c : Nat) (hc : 1 ≤ c)
    (hok : DerivedKeys.Possible T salt c (k + 32)) (right : Bool) (a : Attacker) (ivs : List Block) :
    (opener p T fuel depth k salt c right a ivs).Within (DerivedKeys.Possible T) [] (2 * c) := by
  rw [opener, Spec.KeyGames.Attacker.Within]
  exact ⟨hok, List.not_mem_nil, hc, by omega, by rw [count_dk k hk]; omega, fun _ => trivial⟩

theorem real_opener (p : Program) (T : Target) (fuel depth k : Nat) (salt : List U8) (c : Nat) (right : Bool) (a : Attacker) (ivs : List Block)
    (kdf : List U8 → Nat → Nat → List U8) : Spec.KeyGames.real kdf (opener p T fuel depth k salt c right a ivs) =
      if outcome p T fuel depth k ivs right a (kdf salt c (k + 32)) then 1 else 0 := rfl

theorem ideal_opener (p : Program) (T : Target) (fuel depth k : Nat) (salt : List U8) (c : Nat) (right : Bool) (a : Attacker) (ivs : List Block) :
    Spec.KeyGames.ideal (opener p T fuel depth k salt c right a ivs) =
      avg fun dk : List.Vector U8 (k + 32) => if outcome p T fuel depth k ivs right a dk.toList then 1 else 0 := rfl

theorem real_scryptOpener (p : Program) (T : Target) (fuel depth k : Nat) (salt : List U8) (right : Bool) (a : Attacker) (ivs : List Block)
    (kdf : List U8 → Nat → List U8) : Spec.ScryptGames.real kdf (scryptOpener p T fuel depth k salt right a ivs) =
      if outcome p T fuel depth k ivs right a (kdf salt (k + 32)) then 1 else 0 := rfl

theorem ideal_scryptOpener (p : Program) (T : Target) (fuel depth k : Nat) (salt : List U8) (right : Bool) (a : Attacker) (ivs : List Block) :
    Spec.ScryptGames.ideal (scryptOpener p T fuel depth k salt right a ivs) =
      avg fun dk : List.Vector U8 (k + 32) => if outcome p T fuel depth k ivs right a dk.toList then 1 else 0 := rfl

theorem hmac_length (key m : List U8) : (Spec.hmacSha256 key m).length = 32 := by simp [Spec.hmacSha256, Spec.hmac]

theorem F_length (P S : List U8) (c i : Nat) : (Spec.Pbkdf2.F Spec.hmacSha256 P S c i).length = 32 := by
  have hU (j : Nat) : (Spec.Pbkdf2.U Spec.hmacSha256 P S i j).length = 32 := by cases j <;> exact hmac_length _ _
  have h (l : List Nat) (acc : List U8) (ha : acc.length = 32) :
      (l.foldl (fun acc j => Spec.xorBytes acc (Spec.Pbkdf2.U Spec.hmacSha256 P S i (j + 1))) acc).length = 32 := by
    induction l generalizing acc with
    | nil => exact ha
    | cons j l ih => exact ih _ (by simp [Spec.xorBytes, ha, hU])
  exact h _ _ (hU 0)

theorem pbkdf2_length (P S : List U8) (c len : Nat) : (Spec.Pbkdf2.pbkdf2HmacSha256 P S c len).length = len := by
  have : (Spec.Pbkdf2.stream Spec.hmacSha256 P S c ((len + 31) / 32)).length = 32 * ((len + 31) / 32) := by
    rw [Spec.Pbkdf2.stream, List.length_flatMap]
    simp only [F_length, List.map_const', List.sum_replicate, List.length_range, smul_eq_mul]
    omega
  rw [Spec.Pbkdf2.pbkdf2HmacSha256, Spec.Pbkdf2.pbkdf2, List.length_take, this]
  omega

section
variable {p : Program} (hp : IsProgram Files.lib sources p)
include hp

theorem played_eq (T : Target) (fuel depth : Nat) (hf : 65 ≤ fuel) (hd : 8 ≤ depth) (k : Nat) (hk : k = 16 ∨ k = 24 ∨ k = 32)
    (dk : List U8) (hdk : dk.length = k + 32) (right : Bool) (a : Attacker) (n q v : Nat) (ha : a.Within (Sealable T) (Checkable T) n q v) :
    played p T fuel depth k dk right a =
      avg fun ivs : List.Vector Block q => if outcome p T fuel depth k ivs.toList right a dk then 1 else 0 := by
  have hT := T.two_pow_ge
  have h1 : (cipherKey k dk).length = k := by rw [cipherKey, List.length_take]; omega
  have h2 : (macKey k dk).length = 32 := by rw [macKey, List.length_drop]; omega
  refine real_eq_says _ _ _ right a n q v ha [] fun iv m hm => ?_
  have hl := encrypted_length hp T fuel depth hf hd (cipherKey k dk) (by rw [h1]; exact hk) iv m hm
  refine ⟨hl, ?_⟩
  rw [tag, Forgery.mac_eq hp T fuel depth hd _ (by rw [h2]; omega)]
  · simp
  · rw [Forgery.Possible]
    unfold Sealable at hm
    simp only [List.flatten_cons, List.flatten_nil, List.append_nil, List.length_append, List.Vector.toList_length, hl]
    omega

omit hp in
/-- With random octets, the keys are random and independent. -/
theorem played_random (T : Target) (fuel depth k : Nat) (right : Bool) (a : Attacker) :
    (avg fun dk : List.Vector U8 (k + 32) => played p T fuel depth k dk.toList right a) =
      chance p T fuel depth k (fun x : List.Vector U8 32 => x.toList) right a := by
  rw [avg_vector_append k 32 fun dk => played p T fuel depth k dk right a, avg_comm, chance]
  refine congrArg avg (funext fun x => congrArg avg (funext fun key => ?_))
  rw [played, cipherKey, macKey, List.take_append_of_le_length (by simp), List.take_of_length_le (by simp),
    List.drop_append_of_le_length (by simp), List.drop_of_length_le (by simp), List.nil_append]

/-- The chance of an attacker when the keys are derived by `pbkdf2_sha256` with `c` iterations. The password is drawn in any way: `secret x` for a
uniformly random `x`. -/
def locked (p : Program) (T : Target) (fuel depth k : Nat) {α : Type} [Fintype α] (secret : α → List U8) (salt : List U8) (c : Nat)
    (right : Bool) (a : Attacker) : ℚ :=
  avg fun x => played p T fuel depth k (DerivedKeys.kdf p T fuel depth (secret x) salt c (k + 32)) right a

/-- The chance of an attacker when the keys are derived by a `Scrypt`. -/
def scryptLocked (p : Program) (T : Target) (fuel depth k : Nat) {α : Type} [Fintype α] (secret : α → List U8) (salt : List U8)
    (P : Spec.ScryptGames.Params) (right : Bool) (a : Attacker) : ℚ :=
  avg fun x => played p T fuel depth k (ScryptKeys.kdf p T fuel depth P (secret x) salt (k + 32)) right a

/-- How well HMAC with the password is told from a random function by the distinguishers that come from an attacker, in the mean over the
initialization vectors of the `q` boxes sealed. -/
noncomputable def guessing (p : Program) (T : Target) (fuel depth k q : Nat) {α : Type} [Fintype α] (secret : α → List U8) (salt : List U8) (c : Nat)
    (right : Bool) (a : Attacker) : ℚ :=
  avg fun ivs : List.Vector Block q => (opener p T fuel depth k salt c right a ivs.toList).reduce.advantage secret

/-- The same for scrypt. -/
noncomputable def scryptGuessing (p : Program) (T : Target) (fuel depth k q : Nat) {α : Type} [Fintype α] (secret : α → List U8) (salt : List U8)
    (P : Spec.ScryptGames.Params) (right : Bool) (a : Attacker) : ℚ :=
  avg fun ivs : List.Vector Block q => ((scryptOpener p T fuel depth k salt right a ivs.toList).reduce P).advantage secret

/-- The bound of C99, for random keys. -/
noncomputable def withRandomKeys (p : Program) (T : Target) (fuel depth k n q v : Nat) (a : Attacker) : ℚ :=
  (avg fun x : List.Vector U8 32 => ((a.deaf (tag p T fuel depth x.toList)).side false).reduce.advantage k) +
  (avg fun x : List.Vector U8 32 => ((a.deaf (tag p T fuel depth x.toList)).side true).reduce.advantage k) +
  n * (n - 1) / 2 ^ 128 +
  forging p T fuel depth k q v (fun x : List.Vector U8 32 => x.toList) false a +
  forging p T fuel depth k q v (fun x : List.Vector U8 32 => x.toList) true a + v / 2 ^ 255

theorem kdf_length (T : Target) (fuel depth : Nat) (hd : 8 ≤ depth) (password salt : List U8) (hP : 8 * password.length < 2 ^ T.bits)
    (c len : Nat) (hok : DerivedKeys.Possible T salt c len) (hc : 1 ≤ c) (hlen : len ≤ (2 ^ 32 - 1) * 32) :
    (DerivedKeys.kdf p T fuel depth password salt c len).length = len := by
  rw [DerivedKeys.kdf_eq hp T fuel depth hd password salt hP c len hok hc hlen, pbkdf2_length]

theorem scrypt_kdf_length (T : Target) (fuel depth : Nat) (hd : 8 ≤ depth) (P : Spec.ScryptGames.Params) (hU : ScryptKeys.Usable T P)
    (password salt : List U8) (hP : 8 * password.length < 2 ^ T.bits) (len : Nat) (hok : ScryptKeys.Possible T salt len) :
    (ScryptKeys.kdf p T fuel depth P password salt len).length = len := by
  rw [ScryptKeys.kdf_eq hp T fuel depth hd P hU password salt hP len hok]
  exact pbkdf2_length _ _ _ _

theorem locked_close (T : Target) (fuel depth : Nat) (hf : 65 ≤ fuel) (hd : 8 ≤ depth) (k : Nat) (hk : k = 16 ∨ k = 24 ∨ k = 32)
    {α : Type} [Fintype α] (secret : α → List U8) (hs : ∀ x, 8 * (secret x).length < 2 ^ T.bits) (salt : List U8)
    (hsalt : 8 * (64 + salt.length + 4) < 2 ^ T.bits) (c : Nat) (hc : 1 ≤ c)
    (a : Attacker) (n q v : Nat) (ha : a.Within (Sealable T) (Checkable T) n q v) (right : Bool) :
    |locked p T fuel depth k secret salt c right a - chance p T fuel depth k (fun x : List.Vector U8 32 => x.toList) right a| ≤
      guessing p T fuel depth k q secret salt c right a + 2 * c * (2 * c - 1) / 2 ^ 257 := by
  have hT := T.two_pow_ge
  have hb := bits_isize T
  have hok : DerivedKeys.Possible T salt c (k + 32) := ⟨hsalt, by omega⟩
  have h1 : locked p T fuel depth k secret salt c right a = avg fun ivs : List.Vector Block q => avg fun x =>
      Spec.KeyGames.real (DerivedKeys.kdf p T fuel depth (secret x)) (opener p T fuel depth k salt c right a ivs.toList) := by
    simp only [real_opener]
    rw [avg_comm, locked]
    exact congrArg avg (funext fun x => played_eq hp T fuel depth hf hd k hk _
      (kdf_length hp T fuel depth hd _ _ (hs x) c _ hok hc (by omega)) right a n q v ha)
  have h2 : chance p T fuel depth k (fun x : List.Vector U8 32 => x.toList) right a = avg fun ivs : List.Vector Block q =>
      Spec.KeyGames.ideal (opener p T fuel depth k salt c right a ivs.toList) := by
    rw [← played_random]
    simp only [ideal_opener]
    rw [avg_comm]
    exact congrArg avg (funext fun dk => played_eq hp T fuel depth hf hd k hk _ (by simp) right a n q v ha)
  rw [h1, h2]
  have h3 (ivs : List.Vector Block q) := DerivedKeys.C91_random hp T fuel depth hd secret hs
    (opener p T fuel depth k salt c right a ivs.toList) (2 * c) (opener_within p T fuel depth k hk salt c hc hok right a ivs.toList)
  have h4 := avg_close _ h3
  rw [avg_add, avg_const, Nat.cast_mul, Nat.cast_ofNat] at h4
  rw [guessing]
  exact h4

/-- **C100.** Messages under a password: an attacker who attacks as in C99, and knows the salt, does not find out the side, up to the bound of C99
for random keys, `c * (2 * c - 1) / 2 ^ 255`, and the advantages of distinguishers, made from the attacker, of HMAC with the password from a random
function. -/
theorem C100_pbkdf2 (T : Target) (fuel depth : Nat) (hf : 65 ≤ fuel) (hd : 8 ≤ depth) (k : Nat) (hk : k = 16 ∨ k = 24 ∨ k = 32)
    {α : Type} [Fintype α] (secret : α → List U8) (hs : ∀ x, 8 * (secret x).length < 2 ^ T.bits) (salt : List U8)
    (hsalt : 8 * (64 + salt.length + 4) < 2 ^ T.bits) (c : Nat) (hc : 1 ≤ c)
    (a : Attacker) (n q v : Nat) (ha : a.Within (Sealable T) (Checkable T) n q v) :
    |locked p T fuel depth k secret salt c false a - locked p T fuel depth k secret salt c true a| ≤
      guessing p T fuel depth k q secret salt c false a + guessing p T fuel depth k q secret salt c true a + c * (2 * c - 1) / 2 ^ 255 +
      withRandomKeys p T fuel depth k n q v a := by
  have hT := T.two_pow_ge
  have h1 := locked_close hp T fuel depth hf hd k hk secret hs salt hsalt c hc a n q v ha false
  have h2 := locked_close hp T fuel depth hf hd k hk secret hs salt hsalt c hc a n q v ha true
  have h3 := C99_sealed hp T fuel depth hf hd k hk (fun x : List.Vector U8 32 => x.toList)
    (fun x => by simp only [List.Vector.toList_length]; omega) a n q v ha
  rw [← withRandomKeys] at h3
  have e' : (2 : ℚ) ^ 257 = 4 * 2 ^ 255 := (pow_add 2 255 2).trans (by rw [show (2 : ℚ) ^ 2 = 4 by norm_num, mul_comm])
  have e : (c * (2 * c - 1) / 2 ^ 255 : ℚ) = 2 * c * (2 * c - 1) / 2 ^ 257 + 2 * c * (2 * c - 1) / 2 ^ 257 := by
    rw [e']
    ring
  rw [e]
  rw [abs_le] at *
  constructor <;> linarith [h1.1, h1.2, h2.1, h2.2, h3.1, h3.2]

omit hp in
theorem scrypt_imp {ok ok' : List U8 → Nat → Prop} (P : Spec.ScryptGames.Params) (h : ∀ salt len, ok salt len → ok' salt len)
    (a : Spec.ScryptGames.Attacker) (used : List (List U8)) (q : Nat) (ha : a.Within P ok used q) : a.Within P ok' used q := by
  induction a generalizing used q with
  | answer yes => trivial
  | ask salt len next ih => exact ⟨h _ _ ha.1, ha.2.1, ha.2.2.1, ha.2.2.2.1, fun dk => ih dk _ _ (ha.2.2.2.2 dk)⟩

theorem scrypt_close (T : Target) (fuel depth : Nat) (hf : 65 ≤ fuel) (hd : 8 ≤ depth) (k : Nat) (hk : k = 16 ∨ k = 24 ∨ k = 32)
    {α : Type} [Fintype α] [Nonempty α] (secret : α → List U8) (hs : ∀ x, 8 * (secret x).length < 2 ^ T.bits) (salt : List U8)
    (hsalt : 8 * (64 + salt.length + 4) < 2 ^ T.bits) (P : Spec.ScryptGames.Params) (hU : ScryptKeys.Usable T P)
    (a : Attacker) (n q v : Nat) (ha : a.Within (Sealable T) (Checkable T) n q v) (right : Bool) (e : ℚ)
    (h3 : ∀ a : Spec.ScryptGames.Attacker, a.Within P (fun salt' len => ScryptKeys.Possible T salt' len ∧ salt' = salt) [] 1 →
      |(avg fun x => Spec.ScryptGames.real (ScryptKeys.kdf p T fuel depth P (secret x)) a) - Spec.ScryptGames.ideal a| ≤
        (a.reduce P).advantage secret + e) :
    |scryptLocked p T fuel depth k secret salt P right a - chance p T fuel depth k (fun x : List.Vector U8 32 => x.toList) right a| ≤
      scryptGuessing p T fuel depth k q secret salt P right a + e := by
  have hT := T.two_pow_ge
  have hb := bits_isize T
  have hok : ScryptKeys.Possible T salt (k + 32) := ⟨hsalt, by omega⟩
  have h1 : scryptLocked p T fuel depth k secret salt P right a = avg fun ivs : List.Vector Block q => avg fun x =>
      Spec.ScryptGames.real (ScryptKeys.kdf p T fuel depth P (secret x)) (scryptOpener p T fuel depth k salt right a ivs.toList) := by
    simp only [real_scryptOpener]
    rw [avg_comm, scryptLocked]
    exact congrArg avg (funext fun x => played_eq hp T fuel depth hf hd k hk _
      (scrypt_kdf_length hp T fuel depth hd P hU _ _ (hs x) _ hok) right a n q v ha)
  have h2 : chance p T fuel depth k (fun x : List.Vector U8 32 => x.toList) right a = avg fun ivs : List.Vector Block q =>
      Spec.ScryptGames.ideal (scryptOpener p T fuel depth k salt right a ivs.toList) := by
    rw [← played_random]
    simp only [ideal_scryptOpener]
    rw [avg_comm]
    exact congrArg avg (funext fun dk => played_eq hp T fuel depth hf hd k hk _ (by simp) right a n q v ha)
  rw [h1, h2]
  have h4 := avg_close _ fun ivs : List.Vector Block q => h3 (scryptOpener p T fuel depth k salt right a ivs.toList)
    ⟨⟨hok, rfl⟩, List.not_mem_nil, by omega, le_rfl, fun _ => trivial⟩
  rw [avg_add, avg_const] at h4
  rw [scryptGuessing]
  exact h4

/-- **C100.** The same with keys derived by a `Scrypt`; instead of the iterations, twice the largest probability counts that scrypt's mixing
function has one particular value on random input. -/
theorem C100_scrypt (T : Target) (fuel depth : Nat) (hf : 65 ≤ fuel) (hd : 8 ≤ depth) (k : Nat) (hk : k = 16 ∨ k = 24 ∨ k = 32)
    {α : Type} [Fintype α] [Nonempty α] (secret : α → List U8) (hs : ∀ x, 8 * (secret x).length < 2 ^ T.bits) (salt : List U8)
    (hsalt : 8 * (64 + salt.length + 4) < 2 ^ T.bits) (P : Spec.ScryptGames.Params) (hU : ScryptKeys.Usable T P)
    (a : Attacker) (n q v : Nat) (ha : a.Within (Sealable T) (Checkable T) n q v) :
    |scryptLocked p T fuel depth k secret salt P false a - scryptLocked p T fuel depth k secret salt P true a| ≤
      scryptGuessing p T fuel depth k q secret salt P false a + scryptGuessing p T fuel depth k q secret salt P true a + 2 * P.share +
      withRandomKeys p T fuel depth k n q v a := by
  have hT := T.two_pow_ge
  have h0 (a : Spec.ScryptGames.Attacker) (ha : a.Within P (fun salt' len => ScryptKeys.Possible T salt' len ∧ salt' = salt) [] 1) :
      |(avg fun x => Spec.ScryptGames.real (ScryptKeys.kdf p T fuel depth P (secret x)) a) - Spec.ScryptGames.ideal a| ≤
        (a.reduce P).advantage secret + P.share := by
    have := ScryptKeys.C93_random hp T fuel depth hd P hU secret hs a 1 (scrypt_imp P (fun _ _ h => h.1) a [] 1 ha)
    rw [Nat.cast_one, show (1 * (3 * 1 - 1) / 2 : ℚ) = 1 by norm_num, one_mul] at this
    exact this
  have h1 := scrypt_close hp T fuel depth hf hd k hk secret hs salt hsalt P hU a n q v ha false _ h0
  have h2 := scrypt_close hp T fuel depth hf hd k hk secret hs salt hsalt P hU a n q v ha true _ h0
  have h3 := C99_sealed hp T fuel depth hf hd k hk (fun x : List.Vector U8 32 => x.toList)
    (fun x => by simp only [List.Vector.toList_length]; omega) a n q v ha
  rw [← withRandomKeys] at h3
  rw [abs_le] at *
  constructor <;> linarith [h1.1, h1.2, h2.1, h2.2, h3.1, h3.2]

/-- **C100.** And with a salt that is not of `p * 128 * r` octets it does not count at all. -/
theorem C100_size (T : Target) (fuel depth : Nat) (hf : 65 ≤ fuel) (hd : 8 ≤ depth) (k : Nat) (hk : k = 16 ∨ k = 24 ∨ k = 32)
    {α : Type} [Fintype α] [Nonempty α] (secret : α → List U8) (hs : ∀ x, 8 * (secret x).length < 2 ^ T.bits) (salt : List U8)
    (hsalt : 8 * (64 + salt.length + 4) < 2 ^ T.bits) (P : Spec.ScryptGames.Params) (hU : ScryptKeys.Usable T P)
    (hsize : salt.length ≠ P.p * 128 * P.r) (a : Attacker) (n q v : Nat) (ha : a.Within (Sealable T) (Checkable T) n q v) :
    |scryptLocked p T fuel depth k secret salt P false a - scryptLocked p T fuel depth k secret salt P true a| ≤
      scryptGuessing p T fuel depth k q secret salt P false a + scryptGuessing p T fuel depth k q secret salt P true a +
      withRandomKeys p T fuel depth k n q v a := by
  have hT := T.two_pow_ge
  have h0 (a : Spec.ScryptGames.Attacker) (ha : a.Within P (fun salt' len => ScryptKeys.Possible T salt' len ∧ salt' = salt) [] 1) :
      |(avg fun x => Spec.ScryptGames.real (ScryptKeys.kdf p T fuel depth P (secret x)) a) - Spec.ScryptGames.ideal a| ≤
        (a.reduce P).advantage secret + 0 := by
    rw [add_zero]
    exact ScryptKeys.C93_one hp T fuel depth hd P hU secret hs a
      (scrypt_imp P (fun salt' _ h => ⟨h.1, by rw [h.2]; exact hsize⟩) a [] 1 ha)
  have h1 := scrypt_close hp T fuel depth hf hd k hk secret hs salt hsalt P hU a n q v ha false _ h0
  have h2 := scrypt_close hp T fuel depth hf hd k hk secret hs salt hsalt P hU a n q v ha true _ h0
  have h3 := C99_sealed hp T fuel depth hf hd k hk (fun x : List.Vector U8 32 => x.toList)
    (fun x => by simp only [List.Vector.toList_length]; omega) a n q v ha
  rw [← withRandomKeys] at h3
  rw [abs_le] at *
  constructor <;> linarith [h1.1, h1.2, h2.1, h2.2, h3.1, h3.2]

/-- **C100.** Who knows the password reads the messages. -/
theorem C100_opens (T : Target) (fuel depth : Nat) (hf : 65 ≤ fuel) (hd : 8 ≤ depth) (k : Nat) (hk : k = 16 ∨ k = 24 ∨ k = 32)
    (password salt : List U8) (hP : 8 * password.length < 2 ^ T.bits) (hsalt : 8 * (64 + salt.length + 4) < 2 ^ T.bits)
    (iv : Block) (m : List U8) (hm : Sealable T m) (dk : List U8)
    (hdk : (∃ c, 1 ≤ c ∧ dk = DerivedKeys.kdf p T fuel depth password salt c (k + 32)) ∨
      ∃ P, ScryptKeys.Usable T P ∧ dk = ScryptKeys.kdf p T fuel depth P password salt (k + 32)) :
    reply (tag p T fuel depth (macKey k dk)) (decrypted p T fuel depth (cipherKey k dk)) iv (encrypted p T fuel depth (cipherKey k dk) iv m)
      (tag p T fuel depth (macKey k dk) iv (encrypted p T fuel depth (cipherKey k dk) iv m)) = .message m := by
  have hT := T.two_pow_ge
  have hb := bits_isize T
  have hl : dk.length = k + 32 := by
    rcases hdk with ⟨c, hc, rfl⟩ | ⟨P, hU, rfl⟩
    · exact kdf_length hp T fuel depth hd password salt hP c _ ⟨hsalt, by omega⟩ hc (by omega)
    · exact scrypt_kdf_length hp T fuel depth hd P hU password salt hP _ ⟨hsalt, by omega⟩
  refine C99_opens hp T fuel depth hf hd _ _ ?_ iv m hm
  rw [cipherKey, List.length_take, hl, Nat.min_eq_left (by omega)]
  exact hk

/-- An attacker that has one of two messages sealed and tries to open the box with the keys made of its guess `dk`. -/
def guesser (p : Program) (T : Target) (fuel depth k : Nat) (dk l r : List U8) : Attacker :=
  .send l r fun iv c t => .answer (reply (tag p T fuel depth (macKey k dk)) (decrypted p T fuel depth (cipherKey k dk)) iv c t = .message l)

/-- The probability that the guess is wrong and the tag of the box is right all the same. -/
def accident (p : Program) (T : Target) (fuel depth k : Nat) {α : Type} [Fintype α] (dk : α → List U8) (x₀ : α) (r : List U8) : ℚ :=
  avg fun x => avg fun iv : Block =>
    if dk x ≠ dk x₀ ∧ tag p T fuel depth (macKey k (dk x₀)) iv (encrypted p T fuel depth (cipherKey k (dk x)) iv r) =
      tag p T fuel depth (macKey k (dk x)) iv (encrypted p T fuel depth (cipherKey k (dk x)) iv r) then 1 else 0

/-- **C100.** The password must be hard to guess: with one box and nothing submitted, an attacker finds out the side with the probability that a
guess `x₀` of it leads to the right keys, but for the case that wrong keys happen to lead to the right tag. Here `dk x` is what is derived from the
password `secret x` in either way. -/
theorem C100_guess (T : Target) (fuel depth : Nat) (hf : 65 ≤ fuel) (hd : 8 ≤ depth) (k : Nat) (hk : k = 16 ∨ k = 24 ∨ k = 32)
    {α : Type} [Fintype α] (dk : α → List U8) (hdk : ∀ x, (dk x).length = k + 32) (x₀ : α) (l r : List U8) (hl : Sealable T l) (hr : Sealable T r)
    (hlr : l.length = r.length) (hne : l ≠ r) :
    (guesser p T fuel depth k (dk x₀) l r).Within (Sealable T) (Checkable T) (l.length / 16 + 1) 1 0 ∧
    (avg fun x => if dk x = dk x₀ then (1 : ℚ) else 0) - accident p T fuel depth k dk x₀ r ≤
      (avg fun x => played p T fuel depth k (dk x) false (guesser p T fuel depth k (dk x₀) l r)) -
      (avg fun x => played p T fuel depth k (dk x) true (guesser p T fuel depth k (dk x₀) l r)) := by
  have hkey (x : α) : (cipherKey k (dk x)).length = 16 ∨ (cipherKey k (dk x)).length = 24 ∨ (cipherKey k (dk x)).length = 32 := by
    rw [cipherKey, List.length_take, hdk x, Nat.min_eq_left (by omega)]
    exact hk
  refine ⟨⟨hl, hr, by rw [hlr], le_rfl, le_rfl, fun _ _ _ _ _ => trivial⟩, ?_⟩
  have h1 : (avg fun x => if dk x = dk x₀ then (1 : ℚ) else 0) ≤
      avg fun x => played p T fuel depth k (dk x) false (guesser p T fuel depth k (dk x₀) l r) := by
    refine avg_mono fun x => ?_
    split
    · rename_i hx
      refine le_of_eq ?_
      rw [hx, played, guesser, real, ← avg_const (α := Block) 1]
      refine congrArg avg (funext fun iv => ?_)
      dsimp only [real]
      rw [if_neg (by decide : ¬ false = true), C99_opens hp T fuel depth hf hd _ _ (hkey x₀) iv l hl]
      simp
    · exact (real_mem _ _ _ _ _ _).1
  have h2 : (avg fun x => played p T fuel depth k (dk x) true (guesser p T fuel depth k (dk x₀) l r)) ≤ accident p T fuel depth k dk x₀ r := by
    refine avg_mono fun x => ?_
    rw [played, guesser, real]
    refine avg_mono fun iv => ?_
    dsimp only [real]
    rw [if_pos rfl]
    by_cases hx : dk x = dk x₀
    · rw [hx, C99_opens hp T fuel depth hf hd _ _ (hkey x₀) iv r hr]
      simp [Ne.symm hne]
    · by_cases ht : tag p T fuel depth (macKey k (dk x₀)) iv (encrypted p T fuel depth (cipherKey k (dk x)) iv r) =
          tag p T fuel depth (macKey k (dk x)) iv (encrypted p T fuel depth (cipherKey k (dk x)) iv r)
      · rw [if_pos (⟨hx, ht⟩ : _ ∧ _)]
        split <;> norm_num
      · rw [if_neg (fun h : _ ∧ _ => ht h.2), reply, if_neg ht]
        simp
  linarith

/-- A password of four digits, each equally likely: the bound of `C100_guess` is `1 / 10000` for each guess, if different passwords give different keys
and accidents are excluded. -/
example (T : Target) (dk : (Fin 4 → Fin 10) → List U8) (hdk : ∀ x, (dk x).length = 64) (hinj : dk.Injective) (x₀ : Fin 4 → Fin 10)
    (hacc : accident p T 65 8 32 dk x₀ [1] = 0) :
    (1 / 10000 : ℚ) ≤ (avg fun x => played p T 65 8 32 (dk x) false (guesser p T 65 8 32 (dk x₀) [0] [1])) -
      (avg fun x => played p T 65 8 32 (dk x) true (guesser p T 65 8 32 (dk x₀) [0] [1])) := by
  have hT := T.two_pow_ge
  have h1 : Sealable T [0] := by rw [Sealable, List.length_singleton]; omega
  have h2 : Sealable T [1] := by rw [Sealable, List.length_singleton]; omega
  have h := (C100_guess hp T 65 8 le_rfl le_rfl 32 (by simp) dk hdk x₀ [0] [1] h1 h2 rfl (by decide)).2
  rw [hacc, sub_zero] at h
  refine le_trans (le_of_eq ?_) h
  have e := Spec.Games.avg_mem_card ({x₀} : Finset (Fin 4 → Fin 10))
  simp only [Finset.mem_singleton, Finset.card_singleton, Fintype.card_fun, Fintype.card_fin] at e
  simp only [hinj.eq_iff, e]
  norm_num

/-- `C100_pbkdf2` and `C100_scrypt` for the attacker `flip` of C99, who cannot do much with one box sealed and one submitted. -/
example (T : Target) (salt : List.Vector U8 16) :
    |locked p T 65 8 32 (fun x : List.Vector U8 20 => x.toList) salt.toList 4096 false flip -
        locked p T 65 8 32 (fun x : List.Vector U8 20 => x.toList) salt.toList 4096 true flip| ≤
      guessing p T 65 8 32 1 (fun x : List.Vector U8 20 => x.toList) salt.toList 4096 false flip +
      guessing p T 65 8 32 1 (fun x : List.Vector U8 20 => x.toList) salt.toList 4096 true flip + (4096 : ℕ) * (2 * (4096 : ℕ) - 1) / 2 ^ 255 +
      withRandomKeys p T 65 8 32 2 1 1 flip ∧
    |scryptLocked p T 65 8 32 (fun x : List.Vector U8 20 => x.toList) salt.toList ⟨8, 1024, 16⟩ false flip -
        scryptLocked p T 65 8 32 (fun x : List.Vector U8 20 => x.toList) salt.toList ⟨8, 1024, 16⟩ true flip| ≤
      scryptGuessing p T 65 8 32 1 (fun x : List.Vector U8 20 => x.toList) salt.toList ⟨8, 1024, 16⟩ false flip +
      scryptGuessing p T 65 8 32 1 (fun x : List.Vector U8 20 => x.toList) salt.toList ⟨8, 1024, 16⟩ true flip +
      2 * Spec.ScryptGames.Params.share ⟨8, 1024, 16⟩ + withRandomKeys p T 65 8 32 2 1 1 flip := by
  have hT := T.two_pow_ge
  have hI := bits_isize T
  have hV : T.vecSize ≤ 24 := by rw [Target.vecSize]; rcases T.bits_cases with h | h <;> simp [h]
  have hs (x : List.Vector U8 20) : 8 * x.toList.length < 2 ^ T.bits := by rw [List.Vector.toList_length]; omega
  have hsalt : 8 * (64 + salt.toList.length + 4) < 2 ^ T.bits := by rw [List.Vector.toList_length]; omega
  have hU : ScryptKeys.Usable T ⟨8, 1024, 16⟩ := by
    refine ⟨by decide, ⟨10, rfl⟩, by decide, ?_, ?_, ?_, by decide⟩
    · show 16 * 128 * 8 ≤ _; omega
    · show 1024 * _ ≤ _; omega
    · show 8 * (64 + 16 * 128 * 8 + 4) < _; omega
  exact ⟨C100_pbkdf2 hp T 65 8 le_rfl le_rfl 32 (by simp) _ hs _ hsalt 4096 (by decide) flip 2 1 1 (flip_within T),
    C100_scrypt hp T 65 8 le_rfl le_rfl 32 (by simp) _ hs _ hsalt _ hU flip 2 1 1 (flip_within T)⟩

/-- Salts of 16 octets are as `C100_size` wants them, for these parameters. -/
example (salt : List.Vector U8 16) : salt.toList.length ≠ 16 * 128 * 8 := by simp
end

end Verif.Props.Locked
