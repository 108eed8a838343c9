import Verif.Spec.ScryptGames
import Verif.Proof.KeyGames


/-!
scrypt with a random function gives random keys, unless the mixing function has the same value twice.
-/

namespace Spec.ScryptGames
open Spec Spec.KeyGames
open Spec.Games hiding draw Distinguisher Attacker real ideal ideal_nonneg ideal_le_one random_function reduce_close draw_nonneg draw_le_one draw_eq run_nonneg run_le_one

attribute [local irreducible] avg

theorem ideal_nonneg (a : Attacker) : 0 ≤ ideal a := by
  induction a with
  | answer yes => rw [ideal]; split <;> norm_num
  | ask salt len next ih => exact avg_nonneg fun key => ih _

theorem ideal_le_one (a : Attacker) : ideal a ≤ 1 := by
  induction a with
  | answer yes => rw [ideal]; split <;> norm_num
  | ask salt len next ih => exact avg_le_one fun key => ih _

theorem share_nonneg (P : Params) : 0 ≤ P.share :=
  le_trans (avg_nonneg fun B => by split <;> norm_num) (Finset.le_sup' (f := fun B₀ : List.Vector Byte P.size =>
    avg fun B : List.Vector Byte P.size => if P.mix B.toList = P.mix B₀.toList then (1 : ℚ) else 0)
      (Finset.mem_univ (List.Vector.replicate P.size 0)))

theorem avg_le_share (P : Params) (v : List Byte) :
    (avg fun B : List.Vector Byte P.size => if P.mix B.toList = v then (1 : ℚ) else 0) ≤ P.share := by
  by_cases h : ∃ B₀ : List.Vector Byte P.size, P.mix B₀.toList = v
  · obtain ⟨B₀, rfl⟩ := h
    exact Finset.le_sup' (f := fun B₀ : List.Vector Byte P.size =>
      avg fun B : List.Vector Byte P.size => if P.mix B.toList = P.mix B₀.toList then (1 : ℚ) else 0) (Finset.mem_univ B₀)
  · have e : (fun B : List.Vector Byte P.size => if P.mix B.toList = v then (1 : ℚ) else 0) = fun _ => 0 := by
      funext B
      exact if_neg fun e => h ⟨B, e⟩
    rw [e, avg_const]
    exact share_nonneg P

theorem avg_mem_share (P : Params) (l : List (List Byte)) :
    (avg fun B : List.Vector Byte P.size => if P.mix B.toList ∈ l then (1 : ℚ) else 0) ≤ l.length * P.share := by
  induction l with
  | nil => simp only [List.not_mem_nil, if_false, avg_const, List.length_nil, Nat.cast_zero, zero_mul, le_refl]
  | cons v l ih =>
    have h : (avg fun B : List.Vector Byte P.size => if P.mix B.toList ∈ v :: l then (1 : ℚ) else 0) ≤
        avg fun B : List.Vector Byte P.size => (if P.mix B.toList = v then (1 : ℚ) else 0) + if P.mix B.toList ∈ l then (1 : ℚ) else 0 := by
      refine avg_mono fun B => ?_
      by_cases h1 : P.mix B.toList = v
      · rw [if_pos (h1 ▸ List.mem_cons_self), if_pos h1]
        split <;> norm_num
      · simp only [List.mem_cons, h1, false_or, if_false, zero_add, le_refl]
    rw [avg_add] at h
    have := avg_le_share P v
    rw [List.length_cons]
    push_cast
    linarith

/-- The messages that were asked for: salts that were used before with a number, and this salt with a number up to `i`. -/
def Named (used : List (List Byte)) (salt : List Byte) (i : Nat) (x : List Byte) : Prop :=
  (∃ s ∈ used, ∃ j, x = s ++ beBytes 4 j) ∨ ∃ j, 1 ≤ j ∧ j ≤ i ∧ x = salt ++ beBytes 4 j

theorem named_fresh {used : List (List Byte)} {salt : List Byte} (hs : salt ∉ used) {i : Nat} (hi : i + 1 < 2 ^ 32)
    {x : List Byte} (h : Named used salt i x) : x ≠ salt ++ beBytes 4 (i + 1) := by
  rintro rfl
  rcases h with ⟨s, h1, j, h2⟩ | ⟨j, h1, h2, h3⟩
  · have := (List.append_inj' h2 (by simp [beBytes_length])).1
    exact hs (this ▸ h1)
  · have := beBytes4_inj hi (by omega) (List.append_cancel_left h3)
    omega

theorem draw_const (l : Nat) (c : ℚ) : (draw l fun _ => c) = c := by
  induction l with
  | zero => rfl
  | succ l ih => rw [draw, ih, avg_const]

/-- With one iteration, all blocks are fresh. -/
theorem blocks_close (used : List (List Byte)) (salt : List Byte) (hs : salt ∉ used) (i l : Nat) (hl : i + l < 2 ^ 32)
    (t : List (List Byte × Digest)) (ht : Known (Named used salt i) t) (K : List Byte → Distinguisher) (I e : List Byte → ℚ)
    (h : ∀ s (t' : List (List Byte × Digest)), Known (Named used salt (i + l)) t' → |(K s).random t' - I s| ≤ e s) :
    |(blocks salt 1 i l K).random t - draw l I| ≤ draw l e := by
  induction l generalizing i t K I e with
  | zero => exact h [] t ht
  | succ l ih =>
    rw [blocks, random_fresh fun p hp => named_fresh hs (by omega) (ht p hp), draw, draw]
    refine avg_close _ fun u => ?_
    refine ih (i + 1) (by omega) _ ?_ _ _ _ fun s t' ht' => h _ t' ?_
    · refine Known.cons (fun p hp => ?_) (.inr ⟨i + 1, by omega, by omega, rfl⟩) u
      rcases ht p hp with h | ⟨j, h1, h2, h3⟩
      · exact .inl h
      · exact .inr ⟨j, h1, by omega, h3⟩
    · rw [show i + (l + 1) = i + 1 + l by omega]
      exact ht'

/-- All the messages whose values are known belong to a salt of the attacker or to a value of the mixing function. -/
theorem named_push {used : List (List Byte)} {salt : List Byte} {i : Nat} {t : List (List Byte × Digest)} (h : Known (Named used salt i) t)
    (salt' : List Byte) : Known (Named (salt :: used) salt' 0) t := by
  intro p hp
  rcases h p hp with ⟨s, h1, h2⟩ | ⟨j, -, -, h3⟩
  · exact .inl ⟨s, List.mem_cons_of_mem _ h1, h2⟩
  · exact .inl ⟨salt, List.mem_cons_self, j, h3⟩

theorem count_lt {len : Nat} (h : len ≤ (2 ^ 32 - 1) * 32) : 0 + count len < 2 ^ 32 := by rw [count]; omega

/-- How often one of `s` earlier values comes again, one of `s + 1`, and so on: `q` times. -/
def again (P : Params) (s q : Nat) : ℚ := (∑ i ∈ Finset.range q, ((s : ℚ) + i)) * P.share

theorem again_succ (P : Params) (s q : Nat) : again P s (q + 1) = s * P.share + again P (s + 1) q := by
  rw [again, again, Finset.sum_range_succ', ← add_mul, add_comm]
  congr 1
  congr 1
  · simp
  · apply Finset.sum_congr rfl
    intro i _
    push_cast
    ring

theorem again_nonneg (P : Params) (s q : Nat) : 0 ≤ again P s q :=
  mul_nonneg (Finset.sum_nonneg fun i _ => by positivity) (share_nonneg P)

theorem again_zero (P : Params) (q : Nat) : again P 0 q = q * (q - 1) / 2 * P.share := by
  rw [again]
  congr 1
  induction q with
  | zero => simp
  | succ n ih =>
    rw [Finset.sum_range_succ, ih]
    push_cast
    ring

theorem reduce_close (P : Params) (hmix : ∀ B : List.Vector Byte P.size, (P.mix B.toList).length = P.size)
    (hsize : P.size ≤ (2 ^ 32 - 1) * 32) {ok : List Byte → Nat → Prop} (hok : ∀ salt len, ok salt len → salt.length ≠ P.size)
    (a : Attacker) (salts mixed : List (List Byte)) (hsalts : ∀ s ∈ salts, s.length ≠ P.size) (q : Nat)
    (ha : a.Within P ok salts q) (used : List (List Byte)) (hused : ∀ s, s ∈ used ↔ s ∈ salts ∨ s ∈ mixed)
    (hm : ∀ s ∈ mixed, s.length = P.size) (t : List (List Byte × Digest)) (ht : Known (Named used [] 0) t) :
    |(a.reduce P).random t - ideal a| ≤ again P mixed.length q := by
  induction a generalizing salts mixed q used t with
  | answer yes =>
    rw [Attacker.reduce, KeyGames.Distinguisher.random, ideal, sub_self, abs_zero]
    exact again_nonneg _ _ _
  | ask salt len next ih =>
    obtain ⟨hne, hs, hlen, hq, hw⟩ := ha
    replace hne := hok _ _ hne
    have hsu : salt ∉ used := fun h => by
      rcases (hused _).1 h with h | h
      · exact hs h
      · exact hne (hm _ h)
    have hk0 : Known (Named used salt 0) t := fun p hp => by
      rcases ht p hp with h | ⟨j, h1, h2, -⟩
      · exact .inl h
      · omega
    have hδ := again_nonneg P (mixed.length + 1) (q - 1)
    -- the second application, for a value of the mixing function that did not occur before
    have second : ∀ (b : List Byte) (t' : List (List Byte × Digest)), Known (Named used salt (0 + count P.size)) t' →
        |(blocks (P.mix (b.take P.size)) 1 0 (count len) fun s => (next (s.take len)).reduce P).random t' -
            avg fun key : List.Vector Byte len => ideal (next key.toList)| ≤
          (if (b.take P.size).length = P.size ∧ P.mix (b.take P.size) ∉ mixed then 0 else 1) + again P (mixed.length + 1) (q - 1) := by
      intro b t' ht'
      split
      · rename_i hb
        have hl : (P.mix (b.take P.size)).length = P.size := hmix ⟨b.take P.size, hb.1⟩
        have h := blocks_close (salt :: used) (P.mix (b.take P.size)) (by
            intro h
            rcases List.mem_cons.1 h with h | h
            · exact hne (h ▸ hl)
            · rcases (hused _).1 h with h | h
              · exact hsalts _ h hl
              · exact hb.2 h) 0 (count len) (count_lt hlen) t' (named_push ht' _)
          (fun s => (next (s.take len)).reduce P) (fun s => ideal (next (s.take len))) (fun _ => again P (mixed.length + 1) (q - 1))
          (fun s t'' ht'' => by
            have := ih (s.take len) (salt :: salts) (P.mix (b.take P.size) :: mixed) (by
                intro s hs
                rcases List.mem_cons.1 hs with rfl | hs
                · exact hne
                · exact hsalts _ hs) (q - 1) (hw _) (P.mix (b.take P.size) :: salt :: used) (by
                intro s
                simp only [List.mem_cons, hused]
                tauto) (by
                intro s hs
                rcases List.mem_cons.1 hs with rfl | hs
                · exact hl
                · exact hm _ hs) t'' (named_push ht'' _)
            rwa [List.length_cons] at this)
        rw [draw_take len fun s => ideal (next s), draw_const] at h
        linarith
      · refine (abs_sub_le_one (random_nonneg _ _) (random_le_one _ _) (avg_nonneg fun _ => ideal_nonneg _)
          (avg_le_one fun _ => ideal_le_one _)).trans ?_
        linarith
    have h := blocks_close used salt hsu 0 (count P.size) (count_lt hsize) t hk0 _
      (fun _ => avg fun key : List.Vector Byte len => ideal (next key.toList)) _ second
    rw [draw_const, draw_take P.size fun b => (if b.length = P.size ∧ P.mix b ∉ mixed then (0 : ℚ) else 1) +
      again P (mixed.length + 1) (q - 1), avg_add, avg_const] at h
    rw [Attacker.reduce, ideal]
    refine h.trans ?_
    have e : (fun B : List.Vector Byte P.size => if B.toList.length = P.size ∧ P.mix B.toList ∉ mixed then (0 : ℚ) else 1) =
        fun B => if P.mix B.toList ∈ mixed then 1 else 0 := by
      funext B
      by_cases h : P.mix B.toList ∈ mixed <;> simp [h]
    rw [e]
    have e2 : again P mixed.length q = mixed.length * P.share + again P (mixed.length + 1) (q - 1) := by
      conv_lhs => rw [show q = q - 1 + 1 by omega]
      exact again_succ _ _ _
    have := avg_mem_share P mixed
    linarith

/-- scrypt with a random function, against random keys, for salts that are not of the size of the values of the mixing function. -/
theorem random_keys (P : Params) (hmix : ∀ B : List.Vector Byte P.size, (P.mix B.toList).length = P.size)
    (hsize : P.size ≤ (2 ^ 32 - 1) * 32) {ok : List Byte → Nat → Prop} (hok : ∀ salt len, ok salt len → salt.length ≠ P.size)
    (a : Attacker) (q : Nat) (ha : a.Within P ok [] q) :
    |(a.reduce P).random [] - ideal a| ≤ q * (q - 1) / 2 * P.share := by
  have h := reduce_close P hmix hsize hok a [] [] (by simp) q ha [] (by simp) (by simp) [] (by intro p hp; cases hp)
  rwa [List.length_nil, again_zero] at h

/-! ### Salts of any size

What the attacker does not see, the values of the mixing function, is drawn after everything else (`H` are the hidden choices), so that a salt
is one of the earlier values with small probability. -/

/-- The first octets of a string as a digest. -/
def digest (s : List Byte) : Digest := List.Vector.ofFn fun i => s.getD i 0

theorem digest_append (u : Digest) (s : List Byte) : digest (u.toList ++ s) = u := by
  apply List.Vector.ext
  intro i
  have h : (i : Nat) < u.toList.length := by rw [u.toList_length]; exact i.2
  rw [digest, List.Vector.get_ofFn, List.getD_eq_getElem?_getD, List.getElem?_append_left h, List.getElem?_eq_getElem h, Option.getD_some,
    List.Vector.get_eq_get_toList]
  rfl

/-- What is known of the function after the blocks `s` have been drawn. -/
def push (salt : List Byte) : (i l : Nat) → List Byte → List (List Byte × Digest) → List (List Byte × Digest)
  | _, 0, _, t => t
  | i, l + 1, s, t => push salt (i + 1) l (s.drop 32) ((salt ++ beBytes 4 (i + 1), digest s) :: t)

theorem push_known (used : List (List Byte)) (salt : List Byte) (i l : Nat) (s : List Byte) (t : List (List Byte × Digest))
    (ht : Known (Named used salt i) t) : Known (Named used salt (i + l)) (push salt i l s t) := by
  induction l generalizing i s t with
  | zero => exact ht
  | succ l ih =>
    rw [push, show i + (l + 1) = i + 1 + l by omega]
    refine ih (i + 1) _ _ (Known.cons (fun p hp => ?_) (.inr ⟨i + 1, by omega, by omega, rfl⟩) _)
    rcases ht p hp with h | ⟨j, h1, h2, h3⟩
    · exact .inl h
    · exact .inr ⟨j, h1, by omega, h3⟩

theorem blocks_push (used : List (List Byte)) (salt : List Byte) (hs : salt ∉ used) (i l : Nat) (hl : i + l < 2 ^ 32)
    (t : List (List Byte × Digest)) (ht : Known (Named used salt i) t) (K : List Byte → Distinguisher) :
    (blocks salt 1 i l K).random t = draw l fun s => (K s).random (push salt i l s t) := by
  induction l generalizing i t K with
  | zero => rfl
  | succ l ih =>
    rw [blocks, random_fresh fun p hp => named_fresh hs (by omega) (ht p hp), draw]
    refine congrArg avg (funext fun u => ?_)
    have hk := push_known used salt i 1 u.toList t ht
    have e : push salt i 1 u.toList t = (salt ++ beBytes 4 (i + 1), u) :: t := by
      have := digest_append u []
      rw [List.append_nil] at this
      simp only [push, this]
    rw [e] at hk
    rw [show (chain (1 - 1) u u fun t => blocks salt 1 (i + 1) l fun rest => K (t.toList ++ rest)) =
      blocks salt 1 (i + 1) l fun rest => K (u.toList ++ rest) from rfl, ih (i + 1) (by omega) _ hk]
    refine congrArg (draw l) (funext fun s => ?_)
    rw [push, digest_append, List.drop_left' u.toList_length]

/-- All blocks may be drawn anew, unless there were some for the same salt. -/
theorem blocks_anew (used : List (List Byte)) (salt : List Byte) (l : Nat) (hl : 0 + l < 2 ^ 32)
    (t : List (List Byte × Digest)) (ht : Known (Named used [] 0) t) (K : List Byte → Distinguisher) :
    |(blocks salt 1 0 l K).random t - avg fun s : List.Vector Byte (32 * l) => (K s.toList).random (push salt 0 l s.toList t)| ≤
      if salt ∈ used then 1 else 0 := by
  split
  · exact abs_sub_le_one (random_nonneg _ _) (random_le_one _ _) (avg_nonneg fun _ => random_nonneg _ _) (avg_le_one fun _ => random_le_one _ _)
  · rename_i h
    rw [blocks_push used salt h 0 l hl t (fun p hp => by
      rcases ht p hp with h | ⟨j, h1, h2, -⟩
      · exact .inl h
      · omega), draw_eq, sub_self, abs_zero]

/-- A list of functions of the hidden choices, each of which has one particular value with probability at most `share`. -/
def Even (P : Params) {H : Type} [Fintype H] (fs : List (H → List Byte)) : Prop :=
  ∀ f ∈ fs, ∀ x, (avg fun h => if f h = x then (1 : ℚ) else 0) ≤ P.share

theorem avg_even (P : Params) {H : Type} [Fintype H] [Nonempty H] (fs : List (H → List Byte)) (hf : Even P fs) (x : List Byte) :
    (avg fun h => if x ∈ fs.map (· h) then (1 : ℚ) else 0) ≤ fs.length * P.share := by
  induction fs with
  | nil => simp only [List.map_nil, List.not_mem_nil, if_false, avg_const, List.length_nil, Nat.cast_zero, zero_mul, le_refl]
  | cons f fs ih =>
    have h : (avg fun h => if x ∈ (f :: fs).map (· h) then (1 : ℚ) else 0) ≤
        avg fun h => (if f h = x then (1 : ℚ) else 0) + if x ∈ fs.map (· h) then (1 : ℚ) else 0 := by
      refine avg_mono fun h => ?_
      by_cases h1 : f h = x
      · rw [if_pos (by simp [h1]), if_pos h1]
        split <;> norm_num
      · simp only [List.map_cons, List.mem_cons, Ne.symm h1, h1, false_or, if_false, zero_add, le_refl]
    rw [avg_add] at h
    have := ih fun f' hf' => hf f' (List.mem_cons_of_mem _ hf')
    have := hf f List.mem_cons_self x
    rw [List.length_cons]
    push_cast
    linarith

theorem avg_mixed (P : Params) (l : List (List Byte)) :
    (avg fun b : List.Vector Byte (32 * count P.size) => if P.mix (b.toList.take P.size) ∈ l then (1 : ℚ) else 0) ≤ l.length * P.share := by
  rw [← draw_eq (count P.size) fun b => if P.mix (b.take P.size) ∈ l then (1 : ℚ) else 0,
    draw_take P.size fun b => if P.mix b ∈ l then (1 : ℚ) else 0]
  exact avg_mem_share P l

/-- The coincidences for `q` keys after `s` keys. -/
def twice (P : Params) (s q : Nat) : ℚ := (∑ i ∈ Finset.range q, (3 * ((s : ℚ) + i) + 1)) * P.share

theorem twice_succ (P : Params) (s q : Nat) : twice P s (q + 1) = s * P.share + (2 * s + 1) * P.share + twice P (s + 1) q := by
  rw [twice, twice, Finset.sum_range_succ', ← add_mul, ← add_mul, add_comm]
  congr 1
  congr 1
  · simp only [Nat.cast_zero, add_zero]
    ring
  · apply Finset.sum_congr rfl
    intro i _
    push_cast
    ring

theorem twice_nonneg (P : Params) (s q : Nat) : 0 ≤ twice P s q :=
  mul_nonneg (Finset.sum_nonneg fun i _ => by positivity) (share_nonneg P)

theorem twice_zero (P : Params) (q : Nat) : twice P 0 q = q * (3 * q - 1) / 2 * P.share := by
  rw [twice]
  congr 1
  induction q with
  | zero => simp
  | succ n ih =>
    rw [Finset.sum_range_succ, ih]
    push_cast
    ring

theorem reduce_all (P : Params) (hsize : P.size ≤ (2 ^ 32 - 1) * 32) {ok : List Byte → Nat → Prop} (a : Attacker)
    (salts : List (List Byte)) (q : Nat) (ha : a.Within P ok salts q) {H : Type} [Fintype H] [Nonempty H] (mixed : List (H → List Byte))
    (hm : mixed.length = salts.length) (hf : Even P mixed) (t : H → List (List Byte × Digest))
    (ht : ∀ h, Known (Named (salts ++ mixed.map (· h)) [] 0) (t h)) :
    |(avg fun h => (a.reduce P).random (t h)) - ideal a| ≤ twice P salts.length q := by
  induction a generalizing salts q H with
  | answer yes =>
    simp only [Attacker.reduce, KeyGames.Distinguisher.random, ideal, avg_const, sub_self, abs_zero]
    exact twice_nonneg _ _ _
  | ask salt len next ih =>
    obtain ⟨-, hs, hlen, hq, hw⟩ := ha
    obtain ⟨q, rfl⟩ : ∃ q', q = q' + 1 := ⟨q - 1, by omega⟩
    rw [Nat.add_sub_cancel] at hw
    let V := List.Vector Byte (32 * count P.size)
    let W := List.Vector Byte (32 * count len)
    let f : V → List Byte := fun b => P.mix (b.toList.take P.size)
    let t1 : H × V → List (List Byte × Digest) := fun hb => push salt 0 (count P.size) hb.2.toList (t hb.1)
    let t2 : W → H × V → List (List Byte × Digest) := fun s hb => push (f hb.2) 0 (count len) s.toList (t1 hb)
    have ht1 : ∀ hb, Known (Named (salt :: salts ++ mixed.map (· hb.1)) [] 0) (t1 hb) := fun hb =>
      named_push (push_known _ salt 0 _ _ _ fun p hp => by
        rcases ht hb.1 p hp with h | ⟨j, h1, h2, -⟩
        · exact .inl h
        · omega) []
    have step1 : |(avg fun h => ((Attacker.ask salt len next).reduce P).random (t h)) - avg fun hb : H × V =>
        (blocks (f hb.2) 1 0 (count len) fun s => (next (s.take len)).reduce P).random (t1 hb)| ≤ salts.length * P.share := by
      rw [avg_prod]
      refine (avg_close (fun h => if salt ∈ salts ++ mixed.map (· h) then (1 : ℚ) else 0) fun h => ?_).trans ?_
      · rw [Attacker.reduce]
        exact blocks_anew _ salt _ (count_lt hsize) (t h) (ht h) _
      · have e : (fun h => if salt ∈ salts ++ mixed.map (· h) then (1 : ℚ) else 0) = fun h => if salt ∈ mixed.map (· h) then (1 : ℚ) else 0 := by
          funext h
          simp only [List.mem_append, hs, false_or]
        rw [e, ← hm]
        exact avg_even P mixed hf salt
    have step2 : |(avg fun hb : H × V => (blocks (f hb.2) 1 0 (count len) fun s => (next (s.take len)).reduce P).random (t1 hb)) -
        avg fun hb : H × V => avg fun s : W => ((next (s.toList.take len)).reduce P).random (t2 s hb)| ≤
          (2 * salts.length + 1) * P.share := by
      refine (avg_close (fun hb => if f hb.2 ∈ salt :: salts ++ mixed.map (· hb.1) then (1 : ℚ) else 0) fun hb => ?_).trans ?_
      · exact blocks_anew _ (f hb.2) _ (count_lt hlen) (t1 hb) (ht1 hb) _
      · rw [avg_prod]
        refine (avg_mono (g := fun _ => (2 * (salts.length : ℚ) + 1) * P.share) fun h => ?_).trans (le_of_eq (avg_const _))
        refine (avg_mixed P (salt :: salts ++ mixed.map (· h))).trans (le_of_eq ?_)
        simp only [List.length_append, List.length_cons, List.length_map, hm]
        push_cast
        ring
    have step3 : |(avg fun hb : H × V => avg fun s : W => ((next (s.toList.take len)).reduce P).random (t2 s hb)) -
        avg fun s : W => ideal (next (s.toList.take len))| ≤ twice P (salts.length + 1) q := by
      rw [avg_comm]
      refine (avg_close (fun _ => twice P (salts.length + 1) q) fun s => ?_).trans (le_of_eq (avg_const _))
      refine ih (s.toList.take len) (salt :: salts) q (hw _) ((fun hb => f hb.2) :: mixed.map fun g hb => g hb.1) (by simp [hm]) ?_ (t2 s) ?_
      · intro g hg x
        rw [avg_prod]
        rcases List.mem_cons.1 hg with rfl | hg
        · have := avg_mixed P [x]
          simp only [List.mem_singleton, List.length_singleton, Nat.cast_one, one_mul] at this
          exact (avg_mono (g := fun _ : H => P.share) fun h => this).trans (le_of_eq (avg_const _))
        · obtain ⟨g', hg', rfl⟩ := List.mem_map.1 hg
          refine le_trans (le_of_eq ?_) (hf g' hg' x)
          exact congrArg avg (funext fun h => avg_const (α := V) (if g' h = x then (1 : ℚ) else 0))
      · intro hb
        have := named_push (push_known (salt :: salts ++ mixed.map (· hb.1)) (f hb.2) 0 (count len) s.toList (t1 hb) fun p hp => by
          rcases ht1 hb p hp with h | ⟨j, h1, h2, -⟩
          · exact .inl h
          · omega) []
        intro p hp
        rcases this p hp with ⟨x, h1, h2⟩ | ⟨j, h1, h2, -⟩
        · refine .inl ⟨x, ?_, h2⟩
          simp only [List.mem_cons, List.mem_append, List.mem_map, List.cons_append, List.map_cons, List.map_map] at h1 ⊢
          rcases h1 with rfl | rfl | h1 | ⟨g, h1, rfl⟩
          · exact .inr (.inr (.inl rfl))
          · exact .inl rfl
          · exact .inr (.inl h1)
          · exact .inr (.inr (.inr ⟨g, h1, rfl⟩))
        · omega
    have e : (avg fun s : W => ideal (next (s.toList.take len))) = ideal (.ask salt len next) := by
      rw [← draw_eq (count len) fun s => ideal (next (s.take len)), draw_take len fun s => ideal (next s), ideal]
    rw [← e, twice_succ]
    refine (abs_sub_le _ _ _).trans ((add_le_add step1 ((abs_sub_le _ _ _).trans (add_le_add step2 step3))).trans (le_of_eq ?_))
    ring

/-- scrypt with a random function, against random keys, for all salts. -/
theorem random_keys_all (P : Params) (hsize : P.size ≤ (2 ^ 32 - 1) * 32) {ok : List Byte → Nat → Prop} (a : Attacker) (q : Nat)
    (ha : a.Within P ok [] q) : |(a.reduce P).random [] - ideal a| ≤ q * (3 * q - 1) / 2 * P.share := by
  have h := reduce_all P hsize a [] q ha (H := Unit) [] rfl (by intro f hf; cases hf) (fun _ => []) (by intro h p hp; cases hp)
  rwa [avg_const, List.length_nil, twice_zero] at h

end Spec.ScryptGames
