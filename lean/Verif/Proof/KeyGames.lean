import Verif.Spec.KeyGames
import Verif.Proof.Games

/-!
PBKDF2 with a random function gives random keys, up to the collisions of the iterated values; a random function cannot be forged.
-/

namespace Spec.KeyGames
open Spec Spec.Games

attribute [local irreducible] avg

instance : Nonempty Digest := ⟨List.Vector.replicate 32 0⟩

theorem card_digest : (Fintype.card Digest : ℚ) = N * 2 ^ 128 := by
  have : Fintype.card Digest = 2 ^ 256 := by
    rw [card_vector, show Fintype.card Byte = 2 ^ 8 from (Fintype.ofEquiv_card _).trans (Fintype.card_fin _)]
    norm_num
  rw [N_eq, this]
  norm_num

theorem random_nonneg (d : Distinguisher) (t : List (List Byte × Digest)) : 0 ≤ d.random t := by
  induction d generalizing t with
  | answer yes => rw [Distinguisher.random]; split <;> norm_num
  | query x next ih =>
    rw [Distinguisher.random]
    split
    · exact ih _ _
    · exact avg_nonneg fun y => ih _ _

theorem random_le_one (d : Distinguisher) (t : List (List Byte × Digest)) : d.random t ≤ 1 := by
  induction d generalizing t with
  | answer yes => rw [Distinguisher.random]; split <;> norm_num
  | query x next ih =>
    rw [Distinguisher.random]
    split
    · exact ih _ _
    · exact avg_le_one fun y => ih _ _

theorem ideal_nonneg (a : Attacker) : 0 ≤ ideal a := by
  induction a with
  | answer yes => rw [ideal]; split <;> norm_num
  | ask salt c len next ih => exact avg_nonneg fun key => ih _

theorem ideal_le_one (a : Attacker) : ideal a ≤ 1 := by
  induction a with
  | answer yes => rw [ideal]; split <;> norm_num
  | ask salt c len next ih => exact avg_le_one fun key => ih _

theorem lookup_none {x : List Byte} {t : List (List Byte × Digest)} (h : ∀ p ∈ t, p.1 ≠ x) : t.lookup x = none := by
  rw [List.lookup_eq_none_iff]
  intro p hp
  simpa using fun e => h p hp e.symm

theorem random_fresh {x : List Byte} {t : List (List Byte × Digest)} (h : ∀ p ∈ t, p.1 ≠ x) (next : Digest → Distinguisher) :
    (Distinguisher.query x next).random t = avg fun y : Digest => (next y).random ((x, y) :: t) := by
  rw [Distinguisher.random, lookup_none h]

theorem shift_shift (a c : Digest) : List.Vector.map₂ (· ^^^ ·) a (List.Vector.map₂ (· ^^^ ·) a c) = c := by
  apply List.Vector.ext
  intro i
  simp only [List.Vector.get_map₂, ← BitVec.xor_assoc, BitVec.xor_self, BitVec.zero_xor]

/-- Combined with a given digest, a random digest is random. -/
theorem avg_shift (a : Digest) (f : Digest → ℚ) : (avg fun u : Digest => f (List.Vector.map₂ (· ^^^ ·) a u)) = avg f :=
  avg_equiv ⟨fun c => List.Vector.map₂ (· ^^^ ·) a c, fun c => List.Vector.map₂ (· ^^^ ·) a c, shift_shift a, shift_shift a⟩ f

/-- The chance that a random digest is one of `n` messages. -/
theorem avg_hit (l : List (List Byte)) :
    (avg fun u : Digest => if u.toList ∈ l then (1 : ℚ) else 0) ≤ l.length / N / 2 ^ 128 := by
  generalize hS : Finset.univ.filter (fun u : Digest => u.toList ∈ l) = S
  have e : (fun u : Digest => if u.toList ∈ l then (1 : ℚ) else 0) =
      fun u : Digest => if u ∈ S then (1 : ℚ) else 0 := by
    funext u
    simp [← hS]
  rw [e, avg_mem_card, card_digest, div_div]
  apply div_le_div_of_nonneg_right _ (by positivity)
  have h : S.card ≤ l.toFinset.card := by
    apply Finset.card_le_card_of_injOn (fun u => u.toList)
    · intro u hu
      simpa [← hS] using hu
    · intro u _ v _ h
      exact List.Vector.toList_injective h
  exact Nat.cast_le.2 (h.trans (List.toFinset_card_le l))

/-! The values that the attacker does not see are drawn after everything else: `H` are the hidden choices, and what is known of the function
depends on them. -/

/-- All the messages whose values are known satisfy `Q`. -/
def Known (Q : List Byte → Prop) (t : List (List Byte × Digest)) : Prop := ∀ p ∈ t, Q p.1

theorem Known.cons {Q : List Byte → Prop} {t : List (List Byte × Digest)} (h : Known Q t) {x : List Byte} (hx : Q x) (y : Digest) :
    Known Q ((x, y) :: t) := by
  intro p hp
  rcases List.mem_cons.1 hp with rfl | hp
  · exact hx
  · exact h p hp

/-- A value that is asked for may be drawn anew, unless it is known. -/
theorem random_anew (x : List Byte) (t : List (List Byte × Digest)) (next : Digest → Distinguisher) :
    |(Distinguisher.query x next).random t - avg fun y : Digest => (next y).random ((x, y) :: t)| ≤
      if x ∈ t.map (·.1) then 1 else 0 := by
  split
  · exact abs_sub_le_one (random_nonneg _ _) (random_le_one _ _) (avg_nonneg fun _ => random_nonneg _ _) (avg_le_one fun _ => random_le_one _ _)
  · rename_i h
    rw [random_fresh fun p hp e => h (List.mem_map.2 ⟨p, hp, e⟩), sub_self, abs_zero]

/-- The messages whose values are known, as functions of the hidden choices: there are at most `n`, and each is one particular message that
may be asked for later (`S`) with probability at most `2 ^ -256`. -/
structure Hidden (S : List Byte → Prop) (n : Nat) {H : Type} [Fintype H] (ks : List (H → List Byte)) : Prop where
  len : ks.length ≤ n
  even : ∀ k ∈ ks, ∀ x, S x → (avg fun h => if k h = x then (1 : ℚ) else 0) ≤ 1 / N / 2 ^ 128

/-- The messages are those of `ks`. -/
def Among {H : Type} (ks : List (H → List Byte)) (h : H) (t : List (List Byte × Digest)) : Prop := ∀ p ∈ t, ∃ k ∈ ks, p.1 = k h

theorem Among.cons {H : Type} {ks : List (H → List Byte)} {h : H} {t : List (List Byte × Digest)} (ht : Among ks h t) (k : H → List Byte)
    (y : Digest) : Among (k :: ks) h ((k h, y) :: t) := by
  intro p hp
  rcases List.mem_cons.1 hp with rfl | hp
  · exact ⟨k, List.mem_cons_self, rfl⟩
  · obtain ⟨k', h1, h2⟩ := ht p hp
    exact ⟨k', List.mem_cons_of_mem _ h1, h2⟩

theorem Hidden.mono {S S' : List Byte → Prop} {n n' : Nat} {H : Type} [Fintype H] {ks : List (H → List Byte)} (h : Hidden S n ks)
    (hS : ∀ x, S' x → S x) (hn : n ≤ n') : Hidden S' n' ks :=
  ⟨h.len.trans hn, fun k hk x hx => h.even k hk x (hS x hx)⟩

/-- The chance that a message that was not asked for is known. -/
theorem Hidden.hit {S : List Byte → Prop} {n : Nat} {H : Type} [Fintype H] {ks : List (H → List Byte)} (hk : Hidden S n ks)
    {x : List Byte} (hx : S x) (t : H → List (List Byte × Digest)) (ht : ∀ h, Among ks h (t h)) :
    (avg fun h => if x ∈ (t h).map (·.1) then (1 : ℚ) else 0) ≤ n / N / 2 ^ 128 := by
  have h1 : (avg fun h => if x ∈ (t h).map (·.1) then (1 : ℚ) else 0) ≤ avg fun h => if x ∈ ks.map (· h) then (1 : ℚ) else 0 := by
    refine avg_mono fun h => ?_
    by_cases hm : x ∈ (t h).map (·.1)
    · obtain ⟨p, hp, rfl⟩ := List.mem_map.1 hm
      obtain ⟨k, hk, e⟩ := ht h p hp
      rw [if_pos hm, if_pos (List.mem_map.2 ⟨k, hk, e.symm⟩)]
    · rw [if_neg hm]
      split <;> norm_num
  have h2 : ∀ l : List (H → List Byte), (∀ k ∈ l, k ∈ ks) →
      (avg fun h => if x ∈ l.map (· h) then (1 : ℚ) else 0) ≤ l.length / N / 2 ^ 128 := by
    intro l
    induction l with
    | nil =>
      intro _
      have e : (fun h : H => if x ∈ ([] : List (H → List Byte)).map (· h) then (1 : ℚ) else 0) = fun _ => 0 := by
        funext h
        simp
      rw [e]
      have hz : (avg fun _ : H => (0 : ℚ)) = 0 := by
        have := avg_sub (fun _ : H => (0 : ℚ)) (fun _ => 0)
        simpa using this.symm
      rw [hz]
      simp
    | cons k l ih =>
      intro hl
      have h3 : (avg fun h => if x ∈ (k :: l).map (· h) then (1 : ℚ) else 0) ≤
          avg fun h => (if k h = x then (1 : ℚ) else 0) + if x ∈ l.map (· h) then (1 : ℚ) else 0 := by
        refine avg_mono fun h => ?_
        by_cases h1 : k h = x
        · rw [if_pos (by simp [h1]), if_pos h1]
          split <;> norm_num
        · simp only [List.map_cons, List.mem_cons, Ne.symm h1, h1, false_or, if_false, zero_add, le_refl]
      rw [avg_add] at h3
      have := ih fun k' hk' => hl k' (List.mem_cons_of_mem _ hk')
      have := hk.even k (hl k List.mem_cons_self) x hx
      rw [List.length_cons]
      push_cast
      rw [add_div, add_div]
      linarith
  refine h1.trans ((h2 ks fun _ h => h).trans ?_)
  have : (ks.length : ℚ) ≤ n := Nat.cast_le.2 hk.len
  rw [N_eq]
  gcongr

theorem chain_close (S : List Byte → Prop) (j n : Nat) {H : Type} [Fintype H] [Nonempty H] (ks : List (H → List Byte)) (hk : Hidden S n ks)
    (t : H → Digest → List (List Byte × Digest)) (ht : ∀ h u, Among ks h (t h u)) (a : H → Digest)
    (K : Digest → Distinguisher) (I : Digest → ℚ) (δ : ℚ)
    (hK : ∀ c (H' : Type) [Fintype H'] [Nonempty H'] (ks' : List (H' → List Byte)) (t' : H' → List (List Byte × Digest)),
      Hidden S (n + j) ks' → (∀ h, Among ks' h (t' h)) → |(avg fun h => (K c).random (t' h)) - I c| ≤ δ) :
    |(avg fun h => avg fun u : Digest => (chain j u (List.Vector.map₂ (· ^^^ ·) (a h) u) K).random (t h u)) - avg I| ≤
      collide n j / 2 ^ 128 + δ := by
  induction j generalizing n H with
  | zero =>
    have e : (avg fun h => avg fun u : Digest => (chain 0 u (List.Vector.map₂ (· ^^^ ·) (a h) u) K).random (t h u)) =
        avg fun c : Digest => avg fun h => (K c).random (t h (List.Vector.map₂ (· ^^^ ·) (a h) c)) := by
      rw [avg_comm (fun (c : Digest) h => (K c).random (t h (List.Vector.map₂ (· ^^^ ·) (a h) c)))]
      refine congrArg avg (funext fun h => ?_)
      rw [← avg_shift (a h) fun c => (K c).random (t h (List.Vector.map₂ (· ^^^ ·) (a h) c))]
      refine congrArg avg (funext fun u => ?_)
      rw [shift_shift, chain]
    rw [e]
    refine (avg_close (fun _ => δ) fun c => hK c H ks _ hk fun h => ht h _).trans ?_
    rw [avg_const]
    have := div_nonneg (collide_nonneg n 0) (show (0 : ℚ) ≤ 2 ^ 128 by positivity)
    linarith
  | succ j ih =>
    have h1 : |(avg fun h => avg fun u : Digest => (chain (j + 1) u (List.Vector.map₂ (· ^^^ ·) (a h) u) K).random (t h u)) -
        avg fun h => avg fun u : Digest => avg fun y : Digest =>
          (chain j y (List.Vector.map₂ (· ^^^ ·) (List.Vector.map₂ (· ^^^ ·) (a h) u) y) K).random ((u.toList, y) :: t h u)| ≤
        n / N / 2 ^ 128 := by
      refine (avg_close (fun _ => (n : ℚ) / N / 2 ^ 128) fun h => ?_).trans (le_of_eq (avg_const _))
      refine (avg_close (fun u => if u.toList ∈ (t h u).map (·.1) then (1 : ℚ) else 0) fun u => ?_).trans ?_
      · rw [chain]
        exact random_anew u.toList (t h u) fun y => chain j y (List.Vector.map₂ (· ^^^ ·) (List.Vector.map₂ (· ^^^ ·) (a h) u) y) K
      refine (avg_mono (g := fun u : Digest => if u.toList ∈ ks.map (· h) then (1 : ℚ) else 0) fun u => ?_).trans ((avg_hit _).trans ?_)
      · by_cases hm : u.toList ∈ (t h u).map (·.1)
        · obtain ⟨p, hp, e⟩ := List.mem_map.1 hm
          obtain ⟨k, hk, e'⟩ := ht h u p hp
          rw [if_pos hm, if_pos (List.mem_map.2 ⟨k, hk, by rw [← e', e]⟩)]
        · rw [if_neg hm]
          split <;> norm_num
      · rw [List.length_map, N_eq]
        have : (ks.length : ℚ) ≤ n := Nat.cast_le.2 hk.len
        gcongr
    have h2 := ih (n + 1) (H := H × Digest) ((fun hu => hu.2.toList) :: ks.map fun k hu => k hu.1) ⟨by
        have := hk.len
        simpa using this, by
        intro k hk' x hx
        rcases List.mem_cons.1 hk' with rfl | hk'
        · rw [avg_prod]
          have := avg_hit [x]
          simp only [List.mem_singleton, List.length_singleton, Nat.cast_one] at this
          refine (avg_mono (g := fun _ : H => (1 : ℚ) / N / 2 ^ 128) fun h => this).trans (le_of_eq (avg_const _))
        · obtain ⟨k', hk1, rfl⟩ := List.mem_map.1 hk'
          rw [avg_prod]
          refine le_trans (le_of_eq ?_) (hk.even k' hk1 x hx)
          exact congrArg avg (funext fun h => avg_const (α := Digest) (if k' h = x then (1 : ℚ) else 0))⟩
      (fun hu y => (hu.2.toList, y) :: t hu.1 hu.2) (fun hu y => by
        refine Among.cons (k := fun hu : H × Digest => hu.2.toList) (fun p hp => ?_) y
        obtain ⟨k, hk1, hk2⟩ := ht hu.1 hu.2 p hp
        exact ⟨_, List.mem_map_of_mem hk1, hk2⟩)
      (fun hu => List.Vector.map₂ (· ^^^ ·) (a hu.1) hu.2)
      (fun c H' _ _ ks' t' hk' => hK c H' ks' t' (hk'.mono (fun _ h => h) (by omega)))
    rw [avg_prod] at h2
    refine (abs_sub_le _ _ _).trans ((add_le_add h1 h2).trans (le_of_eq ?_))
    rw [collide_succ, add_div]
    ring

theorem beBytes4_inj {v w : Nat} (hv : v < 2 ^ 32) (hw : w < 2 ^ 32) (h : beBytes 4 v = beBytes 4 w) : v = w := by
  simp only [beBytes, List.range, List.range.loop, List.map_cons, List.map_nil, List.cons.injEq, and_true] at h
  simp only [← BitVec.toNat_inj, BitVec.toNat_ofNat] at h
  norm_num at h
  omega

theorem beBytes_length (n v : Nat) : (beBytes n v).length = n := by simp [beBytes]

/-- The messages that may be asked for later, except for digests: salts that were not used before with a number. -/
def Later (used : List (List Byte)) (x : List Byte) : Prop := ∃ s, s ∉ used ∧ ∃ j, x = s ++ beBytes 4 j

/-- The same, or this salt with a number above `i`. -/
def Next (used : List (List Byte)) (salt : List Byte) (i : Nat) (x : List Byte) : Prop :=
  Later (salt :: used) x ∨ ∃ j, i < j ∧ j < 2 ^ 32 ∧ x = salt ++ beBytes 4 j

theorem Next.mono {used : List (List Byte)} {salt : List Byte} {i i' : Nat} (hi : i ≤ i') {x : List Byte} (h : Next used salt i' x) :
    Next used salt i x := by
  rcases h with h | ⟨j, h1, h2, h3⟩
  · exact .inl h
  · exact .inr ⟨j, by omega, h2, h3⟩

theorem Next.later {used : List (List Byte)} {salt : List Byte} (hs : salt ∉ used) {i : Nat} {x : List Byte} (h : Next used salt i x) :
    Later used x := by
  rcases h with ⟨s, h1, h2⟩ | ⟨j, -, -, h3⟩
  · exact ⟨s, fun h => h1 (List.mem_cons_of_mem _ h), h2⟩
  · exact ⟨salt, hs, j, h3⟩

theorem Next.ne {used : List (List Byte)} {salt : List Byte} {i : Nat} (hi : i < 2 ^ 32) {x : List Byte} (h : Next used salt i x) :
    salt ++ beBytes 4 i ≠ x := by
  rintro rfl
  rcases h with ⟨s, h1, j, h2⟩ | ⟨j, h1, h2, h3⟩
  · have := (List.append_inj' h2 (by simp [beBytes_length])).1
    exact h1 (this ▸ List.mem_cons_self)
  · have := beBytes4_inj hi h2 (List.append_cancel_left h3)
    omega

/-- The mean over `n` random digests, one after the other. -/
def draw : Nat → (List Byte → ℚ) → ℚ
  | 0, k => k []
  | n + 1, k => avg fun u : Digest => draw n fun rest => k (u.toList ++ rest)

theorem draw_nonneg {n : Nat} {k : List Byte → ℚ} (h : ∀ l, 0 ≤ k l) : 0 ≤ draw n k := by
  induction n generalizing k with
  | zero => exact h _
  | succ n ih => exact avg_nonneg fun u => ih fun l => h _

theorem draw_le_one {n : Nat} {k : List Byte → ℚ} (h : ∀ l, k l ≤ 1) : draw n k ≤ 1 := by
  induction n generalizing k with
  | zero => exact h _
  | succ n ih => exact avg_le_one fun u => ih fun l => h _

theorem draw_eq (n : Nat) (k : List Byte → ℚ) : draw n k = avg fun c : List.Vector Byte (32 * n) => k c.toList := by
  induction n generalizing k with
  | zero => exact (avg_vector_zero fun c => k c.toList).symm
  | succ n ih =>
    have h : 32 * (n + 1) = 32 + 32 * n := by omega
    rw [h, avg_vector_append, draw]
    exact congrArg avg (funext fun u => ih _)

theorem draw_take (len : Nat) (k : List Byte → ℚ) :
    (draw (count len) fun t => k (t.take len)) = avg fun c : List.Vector Byte len => k c.toList := by
  have h : 32 * count len = len + (32 * count len - len) := by
    have : len ≤ 32 * count len := by rw [count]; omega
    omega
  rw [draw_eq, h]
  refine (avg_vector_append len _ fun s => k (s.take len)).trans (congrArg avg (funext fun c => ?_))
  have e : (fun d : List.Vector Byte (32 * count len - len) => k (List.take len (c.toList ++ d.toList))) = fun _ => k c.toList := by
    funext d
    rw [List.take_left' c.toList_length]
  rw [e, avg_const]

theorem zero_xor (u : Digest) : List.Vector.map₂ (· ^^^ ·) (List.Vector.replicate 32 0) u = u := by
  apply List.Vector.ext
  intro i
  rw [List.Vector.get_map₂, List.Vector.get_replicate]
  exact BitVec.zero_xor

theorem blocks_close (used : List (List Byte)) (salt : List Byte) (c : Nat) (hc : 1 ≤ c)
    (i l : Nat) (hl : i + l < 2 ^ 32) (n : Nat) {H : Type} [Fintype H] [Nonempty H] (ks : List (H → List Byte))
    (hk : Hidden (Next used salt i) n ks) (t : H → List (List Byte × Digest)) (ht : ∀ h, Among ks h (t h))
    (K : List Byte → Distinguisher) (I : List Byte → ℚ) (δ : ℚ)
    (hK : ∀ s (H' : Type) [Fintype H'] [Nonempty H'] (ks' : List (H' → List Byte)) (t' : H' → List (List Byte × Digest)),
      Hidden (Next used salt (i + l)) (n + c * l) ks' → (∀ h, Among ks' h (t' h)) → |(avg fun h => (K s).random (t' h)) - I s| ≤ δ) :
    |(avg fun h => (blocks salt c i l K).random (t h)) - draw l I| ≤ collide n (c * l) / 2 ^ 128 + δ := by
  induction l generalizing i n H K I δ with
  | zero =>
    have := hK [] H ks t (hk.mono (fun _ h => h) (by omega)) ht
    have h0 : 0 ≤ collide n (c * 0) / 2 ^ 128 := div_nonneg (collide_nonneg _ _) (by positivity)
    simp only [blocks, draw]
    linarith
  | succ l ih =>
    have h1 : |(avg fun h => (blocks salt c i (l + 1) K).random (t h)) - avg fun h => avg fun u : Digest =>
        (chain (c - 1) u u fun d => blocks salt c (i + 1) l fun rest => K (d.toList ++ rest)).random
          ((salt ++ beBytes 4 (i + 1), u) :: t h)| ≤ n / N / 2 ^ 128 :=
      (avg_close (fun h => if salt ++ beBytes 4 (i + 1) ∈ (t h).map (·.1) then (1 : ℚ) else 0) fun h => by
        rw [blocks]
        exact random_anew _ (t h) fun u => chain (c - 1) u u fun d => blocks salt c (i + 1) l fun rest => K (d.toList ++ rest)).trans (hk.hit (.inr ⟨i + 1, by omega, by omega, rfl⟩) t ht)
    have h2 := chain_close (Next used salt (i + 1)) (c - 1) (n + 1) ((fun _ => salt ++ beBytes 4 (i + 1)) :: ks) ⟨by
        have := hk.len
        simpa using this, by
        intro k hk' x hx
        rcases List.mem_cons.1 hk' with rfl | hk'
        · simp only [if_neg (hx.ne (by omega)), avg_const]
          rw [N_eq]
          positivity
        · exact hk.even k hk' x (hx.mono (by omega))⟩
      (fun h u => (salt ++ beBytes 4 (i + 1), u) :: t h) (fun h u => (ht h).cons (fun _ => salt ++ beBytes 4 (i + 1)) u)
      (fun _ => List.Vector.replicate 32 0)
      (fun d => blocks salt c (i + 1) l fun rest => K (d.toList ++ rest)) (fun d => draw l fun rest => I (d.toList ++ rest))
      (collide (n + c) (c * l) / 2 ^ 128 + δ)
      (fun d H' _ _ ks' t' hk' ht' => by
        refine ih (i + 1) (by omega) (n + c) ks' (hk'.mono (fun _ h => h) (by omega)) t' ht' _ _ δ ?_
        intro s H'' _ _ ks'' t'' hk'' ht''
        refine hK _ H'' ks'' t'' ?_ ht''
        rw [show i + (l + 1) = i + 1 + l by omega]
        exact hk''.mono (fun _ h => h) (by rw [Nat.mul_add]; omega))
    simp only [zero_xor] at h2
    rw [draw]
    refine (abs_sub_le _ _ _).trans ((add_le_add h1 h2).trans (le_of_eq ?_))
    have e : collide n (c * (l + 1)) = n / N + collide (n + 1) (c - 1) + collide (n + c) (c * l) := by
      rw [show c * (l + 1) = (c - 1 + 1) + c * l by rw [Nat.mul_add]; omega, collide_add, collide_succ,
        show n + (c - 1 + 1) = n + c by omega]
    rw [e, add_div, add_div]
    ring

theorem reduce_close {ok : List Byte → Nat → Nat → Prop} (a : Attacker) (used : List (List Byte)) (n : Nat) (ha : a.Within ok used n)
    (m : Nat) {H : Type} [Fintype H] [Nonempty H] (ks : List (H → List Byte)) (hk : Hidden (Later used) m ks)
    (t : H → List (List Byte × Digest)) (ht : ∀ h, Among ks h (t h)) :
    |(avg fun h => a.reduce.random (t h)) - ideal a| ≤ collide m n / 2 ^ 128 := by
  induction a generalizing used n m H with
  | answer yes =>
    simp only [Attacker.reduce, Distinguisher.random, ideal, avg_const, sub_self, abs_zero]
    exact div_nonneg (collide_nonneg _ _) (by positivity)
  | ask salt c len next ih =>
    obtain ⟨-, hs, hc, hlen, hn, hw⟩ := ha
    have hcount : 0 + count len < 2 ^ 32 := by rw [count]; omega
    have h := blocks_close used salt c hc 0 (count len) hcount m ks (hk.mono (fun _ h => h.later hs) le_rfl) t ht
      (fun s => (next (s.take len)).reduce) (fun s => ideal (next (s.take len)))
      (collide (m + c * count len) (n - c * count len) / 2 ^ 128)
      (fun s H' _ _ ks' t' h1 h2 =>
        ih _ (salt :: used) _ (hw _) _ ks' (h1.mono (fun _ h => .inl h) le_rfl) t' h2)
    rw [draw_take len fun s => ideal (next s)] at h
    rw [Attacker.reduce, ideal]
    refine h.trans (le_of_eq ?_)
    rw [← add_div, ← collide_add, Nat.add_sub_cancel' hn]

/-- PBKDF2 with a random function, against random keys. -/
theorem random_keys {ok : List Byte → Nat → Nat → Prop} (a : Attacker) (n : Nat) (ha : a.Within ok [] n) :
    |a.reduce.random [] - ideal a| ≤ n * (n - 1) / 2 ^ 257 := by
  have h := reduce_close a [] n ha 0 (H := Unit) [] ⟨le_rfl, by intro k hk; cases hk⟩ (fun _ => []) (by intro h p hp; cases hp)
  rw [collide_zero, N_eq, avg_const] at h
  refine h.trans (le_of_eq ?_)
  rw [show (257 : Nat) = 1 + (128 + 128) from rfl, pow_add, pow_add, div_div, div_div, pow_one]

/-- A random function cannot be forged. -/
theorem forge_random {ok : List Byte → Prop} (f : Forger) (asked : List (List Byte)) (n : Nat) (hf : f.Within ok asked n)
    (t : List (List Byte × Digest)) (ht : ∀ p ∈ t, p.1 ∈ asked) : f.reduce.random t ≤ 1 / 2 ^ 256 := by
  induction f generalizing asked n t with
  | giveUp =>
    rw [Forger.reduce, Distinguisher.random]
    norm_num
  | forge m tag =>
    rw [Forger.reduce, random_fresh fun p hp (e : p.1 = m) => hf.2 (e ▸ ht p hp)]
    have h := avg_hit [tag]
    rw [N_eq] at h
    refine le_of_eq_of_le ?_ (h.trans (le_of_eq (by norm_num)))
    refine congrArg avg (funext fun u => ?_)
    simp [Distinguisher.random]
  | ask m next ih =>
    obtain ⟨-, -, hw⟩ := hf
    rw [Forger.reduce, Distinguisher.random]
    split
    · exact ih _ _ _ (hw _) t fun p hp => List.mem_cons_of_mem _ (ht p hp)
    · have e : (1 : ℚ) / 2 ^ 256 = avg fun _ : Digest => (1 : ℚ) / 2 ^ 256 := (avg_const _).symm
      rw [e]
      refine avg_mono fun y => ih _ _ _ (hw _) _ fun p hp => ?_
      rcases List.mem_cons.1 hp with rfl | hp
      · exact List.mem_cons_self
      · exact List.mem_cons_of_mem _ (ht p hp)

theorem wins_le_one (mac : List Byte → List Byte) (f : Prober) (asked : List (List Byte)) : f.wins mac asked ≤ 1 := by
  induction f generalizing asked with
  | stop => exact zero_le_one
  | ask m next ih => exact ih _ _
  | attempt m tag next ih =>
    rw [Prober.wins]
    split
    · exact le_rfl
    · exact ih _ _

theorem succeeds_nonneg (mac : List Byte → List Byte) (f : Forger) : 0 ≤ f.succeeds mac := by
  induction f with
  | giveUp => exact le_rfl
  | forge m tag => rw [Forger.succeeds]; split <;> norm_num
  | ask m next ih => exact ih _

/-- For a given function, who has a correct attempt wins one of the bets. -/
theorem wins_le (mac : List Byte → List Byte) {ok : List Byte → Prop} (f : Prober) (n v : Nat) (hf : f.Within ok n v)
    (known : List (List Byte × List Byte)) (hk : ∀ p ∈ known, p.2 = mac p.1) :
    f.wins mac (known.map (·.1)) ≤ ∑ j ∈ Finset.range v, (f.bet j known).succeeds mac := by
  induction f generalizing n v known with
  | stop => exact Finset.sum_nonneg fun _ _ => le_rfl
  | ask m next ih =>
    obtain ⟨-, -, hw⟩ := hf
    have := ih (mac m) _ _ (hw _) ((m, mac m) :: known) (by
      intro p hp
      rcases List.mem_cons.1 hp with rfl | hp
      · rfl
      · exact hk p hp)
    exact this
  | attempt m tag next ih =>
    obtain ⟨-, hv, hw⟩ := hf
    cases hl : known.lookup m with
    | some y =>
      have hy : (m, y) ∈ known := by
        obtain ⟨l₁, l₂, e, -⟩ := List.lookup_eq_some_iff.1 hl
        rw [e]
        simp
      have hmem : m ∈ known.map (·.1) := List.mem_map.2 ⟨_, hy, rfl⟩
      rw [Prober.wins, if_neg fun h => h.1 hmem]
      have e : y = mac m := hk _ hy
      refine (ih _ _ _ (hw _) known hk).trans ?_
      have e2 (j : Nat) : (Prober.attempt m tag next).bet j known = (next (mac m = tag)).bet j known := by
        rw [Prober.bet, hl, e]
      simp only [e2]
      exact Finset.sum_le_sum_of_subset_of_nonneg (Finset.range_mono (by omega)) fun _ _ _ => succeeds_nonneg _ _
    | none =>
      have hmem : m ∉ known.map (·.1) := by
        intro h
        obtain ⟨p, hp, rfl⟩ := List.mem_map.1 h
        have := List.lookup_eq_none_iff.1 hl p hp
        simp at this
      obtain ⟨v, rfl⟩ : ∃ w, v = w + 1 := ⟨v - 1, by omega⟩
      rw [Finset.sum_range_succ']
      have e0 : (Prober.attempt m tag next).bet 0 known = .forge m tag := by rw [Prober.bet, hl]; rfl
      have e1 (j : Nat) : (Prober.attempt m tag next).bet (j + 1) known = (next false).bet j known := by rw [Prober.bet, hl]; rfl
      simp only [e0, e1]
      rw [Prober.wins]
      by_cases h : mac m = tag
      · rw [if_pos ⟨hmem, h⟩, Forger.succeeds, if_pos h]
        have := Finset.sum_nonneg (s := Finset.range v) fun j _ => succeeds_nonneg mac ((next false).bet j known)
        linarith
      · rw [if_neg fun h' => h h'.2, Forger.succeeds, if_neg h, add_zero]
        have := ih false _ _ (hw _) known hk
        simpa [h] using this

/-- A bet is a forger as it should be. -/
theorem bet_within {ok : List Byte → Prop} (f : Prober) (n v : Nat) (hf : f.Within ok n v) (j : Nat)
    (known : List (List Byte × List Byte)) : (f.bet j known).Within ok (known.map (·.1)) n := by
  induction f generalizing n v j known with
  | stop => trivial
  | ask m next ih =>
    obtain ⟨hm, hn, hw⟩ := hf
    exact ⟨hm, hn, fun tag => ih tag _ _ (hw _) j ((m, tag) :: known)⟩
  | attempt m tag next ih =>
    obtain ⟨hm, -, hw⟩ := hf
    rw [Prober.bet]
    split
    · exact ih _ _ _ (hw _) _ _
    · rename_i hl
      split
      · refine ⟨hm, fun h => ?_⟩
        obtain ⟨p, hp, rfl⟩ := List.mem_map.1 h
        have := List.lookup_eq_none_iff.1 hl p hp
        simp at this
      · exact ih _ _ _ (hw _) _ _

end Spec.KeyGames
