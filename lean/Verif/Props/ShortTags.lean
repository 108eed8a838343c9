import Verif.Props.Forgery
import Verif.Spec.ShortTags

/-! Property C125: digests of which only the first octets are checked. -/

namespace Verif.Props.ShortTags
open Verif Verif.Source Verif.Text Verif.Props.Source Verif.Props.FromText Verif.Props.DerivedKeys Verif.Props.Forgery Spec.KeyGames
open Spec.Games (avg avg_const avg_mono avg_sum avg_vector_append avg_mem_card)

attribute [local irreducible] avg

theorem card_strings (t : Nat) : (Fintype.card (List.Vector U8 t) : ℚ) = 2 ^ (8 * t) := by
  rw [card_vector, show Fintype.card U8 = 2 ^ 8 from (Fintype.ofEquiv_card _).trans (Fintype.card_fin _)]
  push_cast
  rw [pow_mul]
  norm_num

/-- The chance that a random digest begins with a given string. -/
theorem avg_begins (t : Nat) (ht : t ≤ 32) (tag : List U8) :
    (avg fun u : Digest => if u.toList.take t = tag then (1 : ℚ) else 0) ≤ 1 / 2 ^ (8 * t) := by
  obtain ⟨s, hs⟩ := Nat.exists_eq_add_of_le ht
  have e : (avg fun u : Digest => if u.toList.take t = tag then (1 : ℚ) else 0) =
      avg fun u : List.Vector U8 (t + s) => if u.toList.take t = tag then (1 : ℚ) else 0 := by
    unfold Digest
    rw [hs]
  rw [e, avg_vector_append t s fun u => if u.take t = tag then (1 : ℚ) else 0]
  have e (x : List.Vector U8 t) (y : List.Vector U8 s) : (x.toList ++ y.toList).take t = x.toList :=
    List.take_left' x.toList_length
  simp only [e, avg_const]
  generalize hS : Finset.univ.filter (fun u : List.Vector U8 t => u.toList = tag) = S
  have e : (fun u : List.Vector U8 t => if u.toList = tag then (1 : ℚ) else 0) = fun u => if u ∈ S then (1 : ℚ) else 0 := by
    funext u
    simp [← hS]
  rw [e, avg_mem_card, card_strings]
  apply div_le_div_of_nonneg_right _ (by positivity)
  have : S.card ≤ 1 := by
    rw [Finset.card_le_one]
    intro a ha b hb
    simp only [← hS, Finset.mem_filter, Finset.mem_univ, true_and] at ha hb
    exact List.Vector.toList_injective (ha.trans hb.symm)
  exact_mod_cast this

theorem short_random {ok : List U8 → Prop} (t : Nat) (ht : t ≤ 32) (f : Forger) (asked : List (List U8)) (n : Nat) (hf : f.Within ok asked n)
    (known : List (List U8 × Digest)) (hk : ∀ p ∈ known, p.1 ∈ asked) : (f.reduceShort t).random known ≤ 1 / 2 ^ (8 * t) := by
  induction f generalizing asked n known with
  | giveUp =>
    rw [Forger.reduceShort, Distinguisher.random]
    simp
  | forge m tag =>
    rw [Forger.reduceShort, random_fresh fun p hp (e : p.1 = m) => hf.2 (e ▸ hk p hp)]
    refine le_of_eq_of_le (congrArg avg (funext fun u => ?_)) (avg_begins t ht tag)
    simp [Distinguisher.random]
  | ask m next ih =>
    obtain ⟨-, -, hw⟩ := hf
    rw [Forger.reduceShort, Distinguisher.random]
    split
    · exact ih _ _ _ (hw _) known fun p hp => List.mem_cons_of_mem _ (hk p hp)
    · have e : (1 : ℚ) / 2 ^ (8 * t) = avg fun _ : Digest => (1 : ℚ) / 2 ^ (8 * t) := (avg_const _).symm
      rw [e]
      refine avg_mono fun y => ih _ _ _ (hw _) _ fun p hp => ?_
      rcases List.mem_cons.1 hp with rfl | hp
      · exact List.mem_cons_self
      · exact List.mem_cons_of_mem _ (hk p hp)

theorem short_eq {p : Program} (hp : IsProgram Files.lib sources p) (T : Target) (fuel depth : Nat) (hd : 8 ≤ depth) (key : List U8)
    (hk : 8 * key.length < 2 ^ T.bits) (cut : List U8 → List (List U8)) (hcut : ∀ m, (cut m).flatten = m) (t : Nat)
    (f : Forger) (asked : List (List U8)) (n : Nat) (hf : f.Within (Possible T) asked n) :
    f.succeeds (fun m => (mac p T fuel depth key (cut m)).take t) = (f.reduceShort t).run (Spec.KeyGames.hmac key) := by
  induction f generalizing asked n with
  | giveUp => simp [Forger.succeeds, Forger.reduceShort, Distinguisher.run]
  | forge m tag =>
    have e : mac p T fuel depth key (cut m) = (Spec.KeyGames.hmac key m).toList := by
      rw [mac_eq hp T fuel depth hd key hk (cut m) (by rw [hcut]; exact hf.1), hcut]
    simp only [Forger.succeeds, Forger.reduceShort, Distinguisher.run, e, decide_eq_true_eq]
  | ask m next ih =>
    obtain ⟨hm, -, hw⟩ := hf
    simp only [Forger.succeeds, Forger.reduceShort, Distinguisher.run]
    rw [mac_eq hp T fuel depth hd key hk (cut m) (by rw [hcut]; exact hm), hcut]
    exact ih _ _ _ (hw _)

/-- **C125.** Only the first `t` octets of digests are sent and checked. A forger has messages authenticated with a secret key and then
names another message and `t` octets. The probability that the digest that the program computes for it begins with them is at most
`2 ^ (-8 * t)` and the advantage of the distinguisher `f.reduceShort t` for HMAC with that key. -/
theorem C125_forgery {p : Program} (hp : IsProgram Files.lib sources p) (T : Target) (fuel depth : Nat) (hd : 8 ≤ depth)
    {α : Type} [Fintype α] (secret : α → List U8) (hs : ∀ x, 8 * (secret x).length < 2 ^ T.bits)
    (cut : List U8 → List (List U8)) (hcut : ∀ m, (cut m).flatten = m) (t : Nat) (ht : t ≤ 32)
    (f : Forger) (n : Nat) (hf : f.Within (Possible T) [] n) :
    (avg fun x => f.succeeds fun m => (mac p T fuel depth (secret x) (cut m)).take t) ≤ (f.reduceShort t).advantage secret + 1 / 2 ^ (8 * t) := by
  have h : (avg fun x => f.succeeds fun m => (mac p T fuel depth (secret x) (cut m)).take t) =
      avg fun x => (f.reduceShort t).run (Spec.KeyGames.hmac (secret x)) :=
    congrArg avg (funext fun x => short_eq hp T fuel depth hd (secret x) (hs x) cut hcut t f [] n hf)
  have h1 := short_random t ht f [] n hf [] (by simp)
  have h2 := le_abs_self ((avg fun x => (f.reduceShort t).run (Spec.KeyGames.hmac (secret x))) - (f.reduceShort t).random [])
  rw [h, Distinguisher.advantage]
  linarith

/-- **C125.** The distinguisher asks for one value more than the forger. -/
theorem C125_queries (ok : List U8 → Prop) (t : Nat) (f : Forger) (asked : List (List U8)) (n : Nat) (hf : f.Within ok asked n) :
    (f.reduceShort t).Within (n + 1) := by
  induction f generalizing asked n with
  | giveUp => trivial
  | forge m tag => exact ⟨by omega, fun _ => trivial⟩
  | ask m next ih =>
    obtain ⟨-, hn, hw⟩ := hf
    refine ⟨by omega, fun y => ?_⟩
    rw [show n + 1 - 1 = n - 1 + 1 by omega]
    exact ih _ _ _ (hw _)

/-- **C125.** The same for up to `v` attempts that are answered with right or wrong: at most `v * 2 ^ (-8 * t)` and the advantages of `v`
distinguishers. -/
theorem C125_attempts {p : Program} (hp : IsProgram Files.lib sources p) (T : Target) (fuel depth : Nat) (hd : 8 ≤ depth)
    {α : Type} [Fintype α] (secret : α → List U8) (hs : ∀ x, 8 * (secret x).length < 2 ^ T.bits)
    (cut : List U8 → List (List U8)) (hcut : ∀ m, (cut m).flatten = m) (t : Nat) (ht : t ≤ 32)
    (f : Prober) (n v : Nat) (hf : f.Within (Possible T) n v) :
    (avg fun x => f.wins (fun m => (mac p T fuel depth (secret x) (cut m)).take t) []) ≤
      ∑ j ∈ Finset.range v, ((f.bet j []).reduceShort t).advantage secret + v / 2 ^ (8 * t) := by
  have h := avg_mono (α := α) fun x => wins_le (fun m => (mac p T fuel depth (secret x) (cut m)).take t) f n v hf [] (by simp)
  refine h.trans ?_
  rw [avg_sum]
  have e : (v : ℚ) / 2 ^ (8 * t) = ∑ j ∈ Finset.range v, (1 : ℚ) / 2 ^ (8 * t) := by
    rw [Finset.sum_const, Finset.card_range, nsmul_eq_mul, mul_one_div]
  rw [e, ← Finset.sum_add_distrib]
  exact Finset.sum_le_sum fun j _ => C125_forgery hp T fuel depth hd secret hs cut hcut t ht (f.bet j []) n (bet_within f n v hf j [])

theorem strings_length (t : Nat) : (strings t).length = 2 ^ (8 * t) := by
  induction t with
  | zero => rfl
  | succ t ih =>
    rw [strings, List.length_flatMap]
    simp only [List.length_map, ih]
    rw [List.map_const', List.sum_replicate_nat, List.length_range, Nat.mul_add, pow_add, Nat.mul_comm]
    rfl

theorem mem_strings (s : List U8) : s ∈ strings s.length := by
  induction s with
  | nil => simp [strings]
  | cons b s ih =>
    rw [List.length_cons, strings, List.mem_flatMap]
    exact ⟨b.toNat, List.mem_range.2 b.isLt, List.mem_map.2 ⟨s, ih, by simp⟩⟩

theorem tryAll_wins (f : List U8 → List U8) (m : List U8) (tags : List (List U8)) (h : f m ∈ tags) : (tryAll m tags).wins f [] = 1 := by
  induction tags with
  | nil => cases h
  | cons tag tags ih =>
    rw [tryAll, Prober.wins]
    by_cases e : f m = tag
    · rw [if_pos ⟨by simp, e⟩]
    · rw [if_neg fun h => e h.2, decide_eq_false e]
      exact ih ((List.mem_cons.1 h).resolve_left e)

theorem tryAll_within {ok : List U8 → Prop} (m : List U8) (hm : ok m) (tags : List (List U8)) : (tryAll m tags).Within ok 0 tags.length := by
  induction tags with
  | nil => trivial
  | cons tag tags ih =>
    refine ⟨hm, by simp, fun correct => ?_⟩
    cases correct
    · exact ih
    · trivial

/-- **C125.** The bound for many attempts is one that is reached: with every key, and without a message that was authenticated, `2 ^ (8 * t)`
attempts are enough. -/
theorem C125_search {p : Program} (hp : IsProgram Files.lib sources p) (T : Target) (fuel depth : Nat) (hd : 8 ≤ depth) (key : List U8)
    (hk : 8 * key.length < 2 ^ T.bits) (m : List U8) (hm : Possible T m) (t : Nat) (ht : t ≤ 32) :
    (tryAll m (strings t)).Within (Possible T) 0 (2 ^ (8 * t)) ∧
    (tryAll m (strings t)).wins (fun m => (mac p T fuel depth key [m]).take t) [] = 1 := by
  refine ⟨strings_length t ▸ tryAll_within m hm _, tryAll_wins _ _ _ ?_⟩
  rw [mac_eq hp T fuel depth hd key hk [m] (by simpa using hm)]
  have := mem_strings ((Spec.KeyGames.hmac key [m].flatten).toList.take t)
  rwa [List.length_take, List.Vector.toList_length, Nat.min_eq_left ht] at this

/-- Digests cut to 4 octets, a random key of 32 octets, the forgers of C92. -/
example (T : Target) := C125_forgery C86_text.1 T 0 8 le_rfl (fun x : List.Vector U8 32 => x.toList)
  (fun x => by have := T.two_pow_ge; simp only [List.Vector.toList_length]; omega) _ singles 4 (by decide) example_ 2 (example_within T)

example (T : Target) := C125_attempts C86_text.1 T 0 8 le_rfl (fun x : List.Vector U8 32 => x.toList)
  (fun x => by have := T.two_pow_ge; simp only [List.Vector.toList_length]; omega) _ singles 4 (by decide) prober_ 1 3 (prober_within T)

example (T : Target) := C125_queries _ 4 example_ [] 2 (example_within T)

/-- Digests cut to one octet: 256 attempts. -/
example (T : Target) := C125_search C86_text.1 T 0 8 le_rfl (List.replicate 32 7) (by have := T.two_pow_ge; simp; omega) [1, 2, 3]
  (by have := T.two_pow_ge; simp [Forgery.Possible]; omega) 1 (by decide)

end Verif.Props.ShortTags
