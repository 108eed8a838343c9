import Verif.Props.DerivedKeys

/-!
Property C92: who does not know the key of an `HMac` cannot find the digest of a message that was not authenticated, unless they can tell HMAC
with that key from a random function. Forgers and the reduction are in `Spec/KeyGames.lean`.
-/

namespace Verif.Props.Forgery
open Verif Verif.Source Verif.Text Verif.Props.Source Verif.Props.FromText Verif.Props.DerivedKeys Spec.KeyGames
open Spec.Games (avg avg_const avg_mono avg_sum)

attribute [local irreducible] avg

/-- The digest that the program `p` gives: `HMac::new(key)`, `update` with the pieces, `digest`. -/
def mac (p : Program) (T : Target) (fuel depth : Nat) (key : List U8) (pieces : List (List U8)) : List U8 :=
  match sessionIn p T fuel depth (.hmac_HMac_new, [bytes key])
      (pieces.map (fun c => (.hmac_HMac_update, [bytes c])) ++ [(.hmac_HMac_digest, [])]) with
  | .ok vs => (vs.getLast?.map octets).getD []
  | .error _ => []

/-- The message can be hashed. -/
def Possible (T : Target) (m : List U8) : Prop := 8 * (64 + m.length) < 2 ^ T.bits

theorem mac_eq {p : Program} (hp : IsProgram Files.lib sources p) (T : Target) (fuel depth : Nat) (hd : 8 ≤ depth) (key : List U8)
    (hk : 8 * key.length < 2 ^ T.bits) (pieces : List (List U8)) (hm : Possible T pieces.flatten) :
    mac p T fuel depth key pieces = (Spec.KeyGames.hmac key pieces.flatten).toList := by
  rw [mac, C86_hmac hp T fuel depth hd key pieces hk hm, hmac_toList]
  simp only [List.getLast?_append, List.getLast?_singleton, Option.some_or, Option.map_some, Option.getD_some, octets_bytes]
  rfl

theorem succeeds_eq {p : Program} (hp : IsProgram Files.lib sources p) (T : Target) (fuel depth : Nat) (hd : 8 ≤ depth) (key : List U8)
    (hk : 8 * key.length < 2 ^ T.bits) (cut : List U8 → List (List U8)) (hcut : ∀ m, (cut m).flatten = m)
    (f : Forger) (asked : List (List U8)) (n : Nat) (hf : f.Within (Possible T) asked n) :
    f.succeeds (fun m => mac p T fuel depth key (cut m)) = f.reduce.run (Spec.KeyGames.hmac key) := by
  induction f generalizing asked n with
  | giveUp => simp [Forger.succeeds, Forger.reduce, Distinguisher.run]
  | forge m tag =>
    have e : mac p T fuel depth key (cut m) = (Spec.KeyGames.hmac key m).toList := by
      rw [mac_eq hp T fuel depth hd key hk (cut m) (by rw [hcut]; exact hf.1), hcut]
    simp only [Forger.succeeds, Forger.reduce, Distinguisher.run, e, decide_eq_true_eq]
  | ask m next ih =>
    obtain ⟨hm, -, hw⟩ := hf
    simp only [Forger.succeeds, Forger.reduce, Distinguisher.run]
    rw [mac_eq hp T fuel depth hd key hk (cut m) (by rw [hcut]; exact hm), hcut]
    exact ih _ _ _ (hw _)

/-- **C92.** The reduction asks for one value more than the forger. -/
theorem C92_queries (ok : List U8 → Prop) (f : Forger) (asked : List (List U8)) (n : Nat) (hf : f.Within ok asked n) :
    f.reduce.Within (n + 1) := by
  induction f generalizing asked n with
  | giveUp => trivial
  | forge m tag => exact ⟨by omega, fun _ => trivial⟩
  | ask m next ih =>
    obtain ⟨-, hn, hw⟩ := hf
    refine ⟨by omega, fun y => ?_⟩
    rw [show n + 1 - 1 = n - 1 + 1 by omega]
    exact ih _ _ _ (hw _)

/-- **C92.** A forger has messages authenticated with a secret key by `HMac` of the program in the text, each chosen after it has seen the
earlier digests, and then names another message and a digest for it. The probability that this is the digest that the program computes is at
most `2 ^ -256` and the advantage of the distinguisher `f.reduce` for HMAC with that key, which has one query more than the forger. The key is
drawn in any way: `secret x` for a uniformly random `x`. Messages are written in any pieces: `cut m`. -/
theorem C92_forgery {p : Program} (hp : IsProgram Files.lib sources p) (T : Target) (fuel depth : Nat) (hd : 8 ≤ depth)
    {α : Type} [Fintype α] (secret : α → List U8) (hs : ∀ x, 8 * (secret x).length < 2 ^ T.bits)
    (cut : List U8 → List (List U8)) (hcut : ∀ m, (cut m).flatten = m) (f : Forger) (n : Nat) (hf : f.Within (Possible T) [] n) :
    (avg fun x => f.succeeds fun m => mac p T fuel depth (secret x) (cut m)) ≤ f.reduce.advantage secret + 1 / 2 ^ 256 := by
  have h : (avg fun x => f.succeeds fun m => mac p T fuel depth (secret x) (cut m)) =
      avg fun x => f.reduce.run (Spec.KeyGames.hmac (secret x)) :=
    congrArg avg (funext fun x => succeeds_eq hp T fuel depth hd (secret x) (hs x) cut hcut f [] n hf)
  have h1 := forge_random f [] n hf [] (by simp)
  have h2 := le_abs_self ((avg fun x => f.reduce.run (Spec.KeyGames.hmac (secret x))) - f.reduce.random [])
  rw [h, Distinguisher.advantage]
  linarith

/-- **C92.** The same for many attempts: a forger has messages authenticated and has up to `v` pairs of a message and a digest checked, in any
order. The probability that one of the pairs is correct whose message was not authenticated before is at most `v * 2 ^ -256` and the
advantages of `v` distinguishers for HMAC with that key: for each attempt, the one that bets on it. -/
theorem C92_attempts {p : Program} (hp : IsProgram Files.lib sources p) (T : Target) (fuel depth : Nat) (hd : 8 ≤ depth)
    {α : Type} [Fintype α] (secret : α → List U8) (hs : ∀ x, 8 * (secret x).length < 2 ^ T.bits)
    (cut : List U8 → List (List U8)) (hcut : ∀ m, (cut m).flatten = m) (f : Prober) (n v : Nat) (hf : f.Within (Possible T) n v) :
    (avg fun x => f.wins (fun m => mac p T fuel depth (secret x) (cut m)) []) ≤
      ∑ j ∈ Finset.range v, (f.bet j []).reduce.advantage secret + v / 2 ^ 256 := by
  have h := avg_mono (α := α) fun x => wins_le (fun m => mac p T fuel depth (secret x) (cut m)) f n v hf [] (by simp)
  refine h.trans ?_
  rw [avg_sum]
  have e : (v : ℚ) / 2 ^ 256 = ∑ j ∈ Finset.range v, (1 : ℚ) / 2 ^ 256 := by
    rw [Finset.sum_const, Finset.card_range, nsmul_eq_mul, mul_one_div]
  rw [e, ← Finset.sum_add_distrib]
  exact Finset.sum_le_sum fun j _ => C92_forgery hp T fuel depth hd secret hs cut hcut (f.bet j []) n (bet_within f n v hf j [])

/-- A forger that repeats the digest of a message that it had authenticated. -/
def replay (m : List U8) : Forger := .ask m fun tag => .forge m tag

/-- **C92.** The other message is needed: a repeated digest is correct, always. And a shorter key is no other key: who has the digest of a
message with the key `key` has its digest with `key` and a zero appended, if that has up to 64 octets. -/
theorem C92_replay {p : Program} (hp : IsProgram Files.lib sources p) (T : Target) (fuel depth : Nat) (hd : 8 ≤ depth) (key m : List U8)
    (hk : key.length + 1 ≤ 64) (hm : Possible T m) :
    (replay m).succeeds (fun m => mac p T fuel depth key [m]) = 1 ∧
    mac p T fuel depth (key ++ [0]) [m] = mac p T fuel depth key [m] := by
  have hB : 2 ^ 32 ≤ 2 ^ T.bits := by rcases T.bits_cases with h | h <;> simp [h]
  refine ⟨by simp [replay, Forger.succeeds], ?_⟩
  rw [mac_eq hp T fuel depth hd _ (by simp; omega) [m] (by simpa using hm), mac_eq hp T fuel depth hd _ (by omega) [m] (by simpa using hm),
    hmac_toList, hmac_toList, Spec.hmacSha256, Spec.hmacSha256, Spec.hmac, Spec.hmac]
  have e : Spec.hmacKey Spec.Sha256.sha256 (key ++ [0]) = Spec.hmacKey Spec.Sha256.sha256 key := by
    rw [Spec.hmacKey, Spec.hmacKey, if_neg (by simp; omega), if_neg (by omega), List.append_assoc]
    congr 1
    rw [show [0] = List.replicate 1 (0 : U8) from rfl, List.replicate_append_replicate]
    congr 1
    simp
    omega
  rw [e]

/-- A forger that meets the hypotheses: it has two messages authenticated, the second one depending on the first digest, and names a third. -/
def example_ : Forger := .ask [1] fun t => .ask (2 :: t.take 3) fun t' => .forge [3] t'

theorem example_within (T : Target) : example_.Within (Possible T) [] 2 := by
  have hB : 2 ^ 32 ≤ 2 ^ T.bits := by rcases T.bits_cases with h | h <;> simp [h]
  refine ⟨?_, by decide, fun t => ⟨?_, by decide, fun t' => ⟨?_, ?_⟩⟩⟩
  · simp only [Possible, List.length_cons, List.length_nil]; omega
  · simp only [Possible, List.length_cons, List.length_take]; omega
  · simp only [Possible, List.length_cons, List.length_nil]; omega
  · simp

/-- A forger with three attempts that meets the hypotheses of `C92_attempts`: it tries again on the same message, then has it authenticated. -/
def prober_ : Prober := .attempt [1] [2] fun b => .attempt [1] [if b then 2 else 3] fun _ => .ask [1] fun t => .attempt (1 :: t.take 3) t fun _ => .stop

theorem prober_within (T : Target) : prober_.Within (Possible T) 1 3 := by
  have hB : 2 ^ 32 ≤ 2 ^ T.bits := by rcases T.bits_cases with h | h <;> simp [h]
  refine ⟨?_, by decide, fun b => ⟨?_, by decide, fun _ => ⟨?_, by decide, fun t => ⟨?_, by decide, fun _ => trivial⟩⟩⟩⟩
  all_goals simp only [Possible, List.length_cons, List.length_nil, List.length_take]; omega

/-- Cutting into single octets meets the hypothesis on `cut`. -/
theorem singles (m : List U8) : (m.map fun x => [x]).flatten = m := by induction m <;> simp_all

/-- The theorems applied to those, and a random key of 32 octets. -/
example (T : Target) := C92_forgery C86_text.1 T 0 8 le_rfl (fun x : List.Vector U8 32 => x.toList)
  (fun x => by have := T.two_pow_ge; simp only [List.Vector.toList_length]; omega) _ singles example_ 2 (example_within T)

example (T : Target) := C92_queries _ example_ [] 2 (example_within T)

example (T : Target) := C92_replay C86_text.1 T 0 8 le_rfl [1, 2, 3] [4] (by decide) (by have := T.two_pow_ge; simp only [Possible, List.length_cons, List.length_nil]; omega)

example (T : Target) := C92_attempts C86_text.1 T 0 8 le_rfl (fun x : List.Vector U8 32 => x.toList)
  (fun x => by have := T.two_pow_ge; simp only [List.Vector.toList_length]; omega) _ singles prober_ 1 3 (prober_within T)

end Verif.Props.Forgery
