import Verif.Proof.ScryptGames
import Verif.Props.DerivedKeys
import Verif.Props.Scrypt

/-!
Property C93: keys that are derived by scrypt from one secret password with different salts tell an attacker no more than random keys would,
unless HMAC with that password can be told from a random function, or the mixing function of scrypt has the same value for two random inputs.
The attackers, the games and the reduction are in `Spec/ScryptGames.lean`.
-/

namespace Verif.Props.ScryptKeys
open Verif Verif.Source Verif.Text Verif.Props.Source Verif.Props.FromText Verif.Props.DerivedKeys Spec.ScryptGames
open Spec.KeyGames (Digest Distinguisher count)
open Spec.Games (avg avg_const)

attribute [local irreducible] avg

/-- What the program `p` writes into a buffer of `len` zeros: `Scrypt::new(r, n, p)`, then `derive(password, salt, buffer)`. -/
def kdf (p : Program) (T : Target) (fuel depth : Nat) (P : Params) (password salt : List U8) (len : Nat) : List U8 :=
  match call T p fuel depth .scrypt_Scrypt_new [.usize P.r, .usize P.N, .usize P.p] >>= fun (self, _) =>
      call T p fuel depth .scrypt_Scrypt_derive [self, bytes password, bytes salt, bytes (List.replicate len 0)] with
  | .ok (_, [v]) => octets v
  | _ => []

/-- The salt can be hashed, and the buffer exists. -/
def Possible (T : Target) (salt : List U8) (len : Nat) : Prop := 8 * (64 + salt.length + 4) < 2 ^ T.bits ∧ len ≤ T.isizeMax

/-- Parameters that RFC 7914 allows (and `n = 1`) and for which there is memory. -/
structure Usable (T : Target) (P : Params) : Prop where
  r : 1 ≤ P.r
  N : ∃ k, P.N = 2 ^ k
  p : 1 ≤ P.p
  size : P.size ≤ T.isizeMax
  table : P.N * T.vecSize ≤ T.isizeMax
  hash : 8 * (64 + P.size + 4) < 2 ^ T.bits
  blocks : P.size ≤ (2 ^ 32 - 1) * 32

theorem kdf_eq {p : Program} (hp : IsProgram Files.lib sources p) (T : Target) (fuel depth : Nat) (hd : 8 ≤ depth) (P : Params)
    (hU : Usable T P) (password salt : List U8) (hP : 8 * password.length < 2 ^ T.bits) (len : Nat) (hok : Possible T salt len) :
    kdf p T fuel depth P password salt len = Spec.Scrypt.scrypt password salt P.N P.r P.p len := by
  rw [kdf, C86_scrypt hp T fuel depth hd P.r P.N P.p password salt (List.replicate len 0) hU.r hU.N hU.p hU.size hU.table hP hok.1 hU.hash
    (by simpa using hok.2)]
  simp only [octets_bytes, List.length_replicate]

theorem mix_length (P : Params) (hN : 1 ≤ P.N) (B : List U8) : (P.mix B).length = P.size := by
  rw [Params.mix, List.flatMap_def, Verif.Scrypt.flatten_const_length _ (128 * P.r)]
  · rw [List.length_map, List.length_range, Params.size, Nat.mul_assoc]
  · intro x hx
    rw [List.mem_map] at hx
    obtain ⟨i, _, rfl⟩ := hx
    exact Verif.Props.Scrypt.roMix_length _ _ hN _

theorem stream_eq (password salt : List U8) (l : Nat) :
    ((List.range l).flatMap fun x => Spec.Pbkdf2.F Spec.hmacSha256 password salt 1 (0 + x + 1)) =
      Spec.Pbkdf2.stream Spec.hmacSha256 password salt 1 l := by
  simp only [Nat.zero_add]
  rfl

/-- The attacker against the program is the distinguisher against HMAC. -/
theorem real_eq {p : Program} (hp : IsProgram Files.lib sources p) (T : Target) (fuel depth : Nat) (hd : 8 ≤ depth) (P : Params)
    (hU : Usable T P) (password : List U8) (hP : 8 * password.length < 2 ^ T.bits) (a : Attacker) (used : List (List U8)) (q : Nat)
    (ha : a.Within P (Possible T) used q) :
    real (kdf p T fuel depth P password) a = (a.reduce P).run (Spec.KeyGames.hmac password) := by
  induction a generalizing used q with
  | answer yes => rfl
  | ask salt len next ih =>
    obtain ⟨hok, -, -, -, hw⟩ := ha
    rw [real, Attacker.reduce, run_blocks, run_blocks, kdf_eq hp T fuel depth hd P hU password salt hP len hok, ih _ _ _ (hw _),
      stream_eq, stream_eq]
    rfl

/-- **C93.** The reduction asks for as many values of the function as scrypt asks for in its two uses of PBKDF2. -/
theorem C93_queries (P : Params) (a : Attacker) (n : Nat) (ha : a.Cost P n) : (a.reduce P).Within n := by
  induction a generalizing n with
  | answer yes => trivial
  | ask salt len next ih =>
    obtain ⟨hn, hw⟩ := ha
    refine within_blocks salt 1 le_rfl n 0 _ (by omega) _ fun b => within_blocks _ 1 le_rfl _ 0 _ (by omega) _ fun t => ?_
    rw [Nat.one_mul, Nat.one_mul, Nat.sub_sub]
    exact ih _ _ (hw _)

/-- **C93.** An attacker has keys derived from a secret password by a `Scrypt` of the program in the text, and names for each key a new salt
and the size, after it has seen the earlier keys. With `q` keys in total, its chance to say yes differs from its chance when it is given random
keys instead by no more than the advantage of the distinguisher `a.reduce P` for HMAC with that password, and `q * (3 * q - 1) / 2` times the
largest probability that scrypt's mixing function has one particular value on random input. The password is drawn in any way: `secret x` for a
uniformly random `x`. -/
theorem C93_random {p : Program} (hp : IsProgram Files.lib sources p) (T : Target) (fuel depth : Nat) (hd : 8 ≤ depth) (P : Params)
    (hU : Usable T P) {α : Type} [Fintype α] (secret : α → List U8) (hs : ∀ x, 8 * (secret x).length < 2 ^ T.bits)
    (a : Attacker) (q : Nat) (ha : a.Within P (Possible T) [] q) :
    |(avg fun x => real (kdf p T fuel depth P (secret x)) a) - ideal a| ≤
      (a.reduce P).advantage secret + q * (3 * q - 1) / 2 * P.share := by
  have h : (avg fun x => real (kdf p T fuel depth P (secret x)) a) = avg fun x => (a.reduce P).run (Spec.KeyGames.hmac (secret x)) :=
    congrArg avg (funext fun x => real_eq hp T fuel depth hd P hU (secret x) (hs x) a [] q ha)
  rw [h, Distinguisher.advantage]
  exact (abs_sub_le _ ((a.reduce P).random []) _).trans (add_le_add le_rfl (random_keys_all P hU.blocks a q ha))

theorem within_mono {P : Params} {ok ok' : List U8 → Nat → Prop} (h : ∀ salt len, ok salt len → ok' salt len) (a : Attacker)
    (used : List (List U8)) (q : Nat) (ha : a.Within P ok used q) : a.Within P ok' used q := by
  induction a generalizing used q with
  | answer yes => trivial
  | ask salt len next ih =>
    obtain ⟨h1, h2, h3, h4, h5⟩ := ha
    exact ⟨h _ _ h1, h2, h3, h4, fun key => ih _ _ _ (h5 key)⟩

/-- **C93.** With salts that are not of the size of scrypt's inner string (`p * 128 * r` octets) the factor is `q * (q - 1) / 2`. -/
theorem C93_sizes {p : Program} (hp : IsProgram Files.lib sources p) (T : Target) (fuel depth : Nat) (hd : 8 ≤ depth) (P : Params)
    (hU : Usable T P) {α : Type} [Fintype α] (secret : α → List U8) (hs : ∀ x, 8 * (secret x).length < 2 ^ T.bits)
    (a : Attacker) (q : Nat) (ha : a.Within P (fun salt len => Possible T salt len ∧ salt.length ≠ P.size) [] q) :
    |(avg fun x => real (kdf p T fuel depth P (secret x)) a) - ideal a| ≤
      (a.reduce P).advantage secret + q * (q - 1) / 2 * P.share := by
  have h : (avg fun x => real (kdf p T fuel depth P (secret x)) a) = avg fun x => (a.reduce P).run (Spec.KeyGames.hmac (secret x)) :=
    congrArg avg (funext fun x => real_eq hp T fuel depth hd P hU (secret x) (hs x) a [] q (within_mono (fun _ _ h => h.1) a [] q ha))
  have hN : 1 ≤ P.N := by
    obtain ⟨k, hk⟩ := hU.N
    rw [hk]
    exact Nat.one_le_two_pow
  rw [h, Distinguisher.advantage]
  exact (abs_sub_le _ ((a.reduce P).random []) _).trans
    (add_le_add le_rfl (random_keys P (fun B => mix_length P hN _) hU.blocks (fun _ _ h => h.2) a q ha))

/-- **C93.** One key alone, with a salt that is not of that size, is as good as random, up to the advantage against HMAC: the mixing function
does no harm. -/
theorem C93_one {p : Program} (hp : IsProgram Files.lib sources p) (T : Target) (fuel depth : Nat) (hd : 8 ≤ depth) (P : Params)
    (hU : Usable T P) {α : Type} [Fintype α] (secret : α → List U8) (hs : ∀ x, 8 * (secret x).length < 2 ^ T.bits)
    (a : Attacker) (ha : a.Within P (fun salt len => Possible T salt len ∧ salt.length ≠ P.size) [] 1) :
    |(avg fun x => real (kdf p T fuel depth P (secret x)) a) - ideal a| ≤ (a.reduce P).advantage secret := by
  have := C93_sizes hp T fuel depth hd P hU secret hs a 1 ha
  simpa using this

/-- The parameters of the example in the documentation of `Scrypt`, and an attacker that meets the hypotheses: it asks for two keys of 64
octets and compares their first octets. -/
def example_ : Attacker := .ask [1] 64 fun k => .ask (2 :: k.take 16) 64 fun k' => .answer (k.head? = k'.head?)

theorem example_within (T : Target) : Usable T ⟨8, 1024, 16⟩ ∧
    example_.Within ⟨8, 1024, 16⟩ (fun salt len => Possible T salt len ∧ salt.length ≠ Params.size ⟨8, 1024, 16⟩) [] 2 ∧ example_.Cost ⟨8, 1024, 16⟩ 1028 := by
  have hT : 2 ^ 31 - 1 ≤ T.isizeMax := by rcases T.bits_cases with h | h <;> simp [Target.isizeMax, h]
  have hV : T.vecSize ≤ 24 := by rw [Target.vecSize]; rcases T.bits_cases with h | h <;> simp [h]
  have hB : 2 ^ 32 ≤ 2 ^ T.bits := by rcases T.bits_cases with h | h <;> simp [h]
  refine ⟨⟨by decide, ⟨10, rfl⟩, by decide, ?_, ?_, ?_, by decide⟩,
    ⟨⟨⟨by simp; omega, by omega⟩, by simp [Params.size]⟩, by simp, by decide, by decide, fun k => ⟨⟨⟨?_, by omega⟩, ?_⟩, by simp, by decide,
      by decide, fun _ => trivial⟩⟩, ⟨by decide, fun _ => ⟨by decide, fun _ => trivial⟩⟩⟩
  · show 16 * 128 * 8 ≤ _; omega
  · show 1024 * _ ≤ _; omega
  · show 8 * (64 + 16 * 128 * 8 + 4) < _; omega
  · simp only [List.length_cons, List.length_take]; omega
  · simp only [List.length_cons, List.length_take, Params.size]; omega

/-- The theorems applied to that attacker and a random password of 16 octets. -/
example (T : Target) := C93_sizes C86_text.1 T 0 8 le_rfl _ (example_within T).1 (fun x : List.Vector U8 16 => x.toList)
  (fun x => by have := T.two_pow_ge; simp only [List.Vector.toList_length]; omega) example_ 2 (example_within T).2.1

example (T : Target) := C93_queries _ example_ 1028 (example_within T).2.2

/-- One that asks for a single key. -/
example (T : Target) := C93_one C86_text.1 T 0 8 le_rfl _ (example_within T).1 (fun x : List.Vector U8 16 => x.toList)
  (fun x => by have := T.two_pow_ge; simp only [List.Vector.toList_length]; omega) (.ask [1] 64 fun k => .answer (k.head? = some 0))
  ⟨(example_within T).2.1.1, by simp, by decide, by decide, fun _ => trivial⟩

/-- `C93_random` allows salts of any size. -/
example (T : Target) := C93_random C86_text.1 T 0 8 le_rfl _ (example_within T).1 (fun x : List.Vector U8 16 => x.toList)
  (fun x => by have := T.two_pow_ge; simp only [List.Vector.toList_length]; omega) (.ask [1] 64 fun k => .answer (k.head? = some 0)) 1
  ⟨(example_within T).2.1.1.1, by simp, by decide, by decide, fun _ => trivial⟩

end Verif.Props.ScryptKeys
