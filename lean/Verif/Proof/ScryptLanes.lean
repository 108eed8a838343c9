import Verif.Proof.Drawing
import Verif.Proof.Scrypt

/-!
The evaluations of the core in `scryptROMix`: each one takes in the value of the one before, so that nobody gets to the end without all of them,
except by chance.
-/

namespace Spec.ScryptPrice
open Spec Spec.Games
open Spec.Scrypt (block integerify)

attribute [local irreducible] avg
set_option linter.constructorNameAsVariable false

/-- A value of the core. -/
abbrev Cell := List.Vector Byte 64

/-- The probability of one value. -/
def ε : ℚ := 1 / 2 ^ 512

theorem ε_nonneg : 0 ≤ ε := by
  rw [ε]
  positivity

theorem card_cell : Fintype.card Cell = 2 ^ 512 := by
  rw [card_vector, show Fintype.card Byte = 2 ^ 8 from (Fintype.ofEquiv_card _).trans (Fintype.card_fin _), ← pow_mul]

theorem avg_ind {α : Type} [Fintype α] (p : α → Prop) [DecidablePred p] :
    (avg fun y => ind (p y)) = ((Finset.univ.filter p).card : ℚ) / Fintype.card α := by
  classical
  rw [← avg_mem_card]
  refine congrArg avg (funext fun y => ?_)
  by_cases h : p y
  · rw [ind_pos h, if_pos (by simpa using h)]
  · rw [ind_neg h, if_neg (by simpa using h)]

theorem avg_zero {α : Type} [Fintype α] : (avg fun _ : α => (0 : ℚ)) = 0 := by
  simp [avg]

/-- The chance that what is made of a random value is in a list. -/
theorem avg_among (g : Cell → Option (List Byte)) (κ : Nat) (h : ∀ z, (Finset.univ.filter fun y => g y = some z).card ≤ κ) (D : List (List Byte)) :
    (avg fun y => ind (∃ z ∈ D, g y = some z)) ≤ D.length * κ * ε := by
  induction D with
  | nil =>
    rw [show (fun y => ind (∃ z ∈ ([] : List (List Byte)), g y = some z)) = fun _ => 0 from funext fun y => ind_neg (by simp), avg_zero]
    simp
  | cons d D ih =>
    have h1 (y : Cell) : ind (∃ z ∈ d :: D, g y = some z) ≤ ind (g y = some d) + ind (∃ z ∈ D, g y = some z) := by
      refine le_trans (ind_mono fun h => ?_) (ind_or _ _)
      simpa using h
    refine (avg_mono h1).trans ?_
    rw [avg_add, avg_ind, card_cell]
    have h2 : ((Finset.univ.filter fun y => g y = some d).card : ℚ) / (2 ^ 512 : ℕ) ≤ κ * ε := by
      rw [ε, mul_one_div, Nat.cast_pow, Nat.cast_ofNat]
      exact div_le_div_of_nonneg_right (by exact_mod_cast h d) (by positivity)
    rw [List.length_cons, Nat.cast_succ]
    linarith

/-! ### Sequences of evaluations -/

/-- The first evaluation, if it is one of the core. -/
def first : Algorithm (List Byte) → Option (List Byte)
  | .eval (.core x) _ => some x
  | _ => none

/-- Each value of the last evaluation leads to an algorithm with `L`; at most `κ` of them lead to the same next evaluation; at the end the value is
the end of the result. -/
def After (κ w : Nat) (L : Algorithm (List Byte) → Prop) (g : Cell → Algorithm (List Byte)) : Prop :=
  (∀ y, L (g y)) ∧ (∀ z, (Finset.univ.filter fun y => first (g y) = some z).card ≤ κ) ∧
    ∀ y out, g y = .result out → out.length = w ∧ out.drop (w - 64) = y.toList

/-- `m` evaluations of the core, each of which takes in the value of the one before. -/
def Lane (κ w : Nat) : Nat → Algorithm (List Byte) → Prop
  | 0, .result out => out.length = w
  | m + 1, .eval (.core _) next => After κ w (Lane κ w m) next
  | _, _ => False

/-- The evaluations of the core among some evaluations. -/
def cores : List Question → List (List Byte)
  | [] => []
  | .core x :: l => x :: cores l
  | .hmac _ _ :: l => cores l

theorem cores_append (l l' : List Question) : cores (l ++ l') = cores l ++ cores l' := by
  induction l with
  | nil => rfl
  | cons q l ih => cases q <;> simp [cores, ih]

theorem mem_cores {x : List Byte} {l : List Question} : x ∈ cores l ↔ .core x ∈ l := by
  induction l with
  | nil => simp [cores]
  | cons q l ih => cases q <;> simp [cores, ih]

/-- The last 64 octets. -/
def tail (o : List Byte) : List Byte := o.drop (o.length - 64)

/-- All evaluations of the core are different, and different from those in `D`; the result does not end like one in `T`. -/
def Good (D T : List (List Byte)) (p : List Byte × List Question) : Prop :=
  (cores p.2).Nodup ∧ (∀ x ∈ cores p.2, x ∉ D) ∧ tail p.1 ∉ T

theorem lane_first {κ w m : Nat} {ℓ : Algorithm (List Byte)} (h : Lane κ w (m + 1) ℓ) :
    ∃ x next, ℓ = .eval (.core x) next ∧ After κ w (Lane κ w m) next ∧ first ℓ = some x := by
  match ℓ, h with
  | .eval (.core x) next, h => exact ⟨x, next, rfl, h, rfl⟩

theorem lane_zero {κ w : Nat} {ℓ : Algorithm (List Byte)} (h : Lane κ w 0 ℓ) : ∃ out, ℓ = .result out ∧ out.length = w := by
  match ℓ, h with
  | .result out, h => exact ⟨out, rfl, h⟩

/-- No value is known for an evaluation of the core that is not in `D`. -/
def CoreIn (t : Table) (D : List (List Byte)) : Prop := ∀ x, t (.core x) ≠ none → x ∈ D

theorem CoreIn.update {t : Table} {D : List (List Byte)} (h : CoreIn t D) (x : List Byte) (y : Cell) :
    CoreIn (Function.update t (.core x) (some y)) (x :: D) := by
  intro z hz
  by_cases e : z = x
  · exact e ▸ List.mem_cons_self
  · rw [Function.update_of_ne (by simpa using e)] at hz
    exact List.mem_cons_of_mem _ (h z hz)

/-- From a new evaluation on, all of them are new. -/
theorem fresh (κ w : Nat) (hκ : 1 ≤ κ) (T : List (List Byte)) (m : Nat) (ℓ : Algorithm (List Byte)) (hl : Lane κ w (m + 1) ℓ) (D : List (List Byte))
    (hx : ∀ x, first ℓ = some x → x ∉ D) (t : Table) (ht : CoreIn t D) :
    ex (fun p _ => ind (¬ Good D T p)) t ℓ.logged ≤ ((m + 1 : Nat) : ℚ) * κ * (D.length + (m + 1 : Nat) + T.length) * ε := by
  have hε := ε_nonneg
  have hκ' : (1 : ℚ) ≤ κ := by exact_mod_cast hκ
  induction m generalizing ℓ D t with
  | zero =>
    obtain ⟨x, next, rfl, ⟨h1, h2, h3⟩, hf⟩ := lane_first hl
    have hxD := hx x hf
    have hn : t (.core x) = none := by
      by_contra h
      exact hxD (ht x h)
    rw [ex_logged_none hn]
    have step (y : Cell) : ex (fun p _ => ind (¬ Good D T (p.1, .core x :: p.2))) (Function.update t (.core x) (some y)) (next y).logged ≤
        ind (∃ z ∈ T, some y.toList = some z) := by
      obtain ⟨out, ho, hw⟩ := lane_zero (h1 y)
      rw [ho]
      refine ind_mono fun hg => ?_
      by_contra hc
      refine hg ⟨by simp [cores], by simpa [cores] using hxD, fun hT => hc ⟨_, hT, ?_⟩⟩
      obtain ⟨h4, h5⟩ := h3 y out ho
      rw [tail, h4, h5]
    refine (avg_mono step).trans ((avg_among (fun y => some y.toList) 1 (fun z => ?_) T).trans ?_)
    · rw [Finset.card_le_one]
      intro a ha b hb
      simp only [Finset.mem_filter, Finset.mem_univ, true_and, Option.some.injEq] at ha hb
      exact List.Vector.toList_injective (ha.trans hb.symm)
    · refine mul_le_mul_of_nonneg_right ?_ hε
      have : (0 : ℚ) ≤ D.length := Nat.cast_nonneg _
      have : (0 : ℚ) ≤ T.length := Nat.cast_nonneg _
      push_cast
      nlinarith
  | succ m ih =>
    obtain ⟨x, next, rfl, ⟨h1, h2, h3⟩, hf⟩ := lane_first hl
    have hxD := hx x hf
    have hn : t (.core x) = none := by
      by_contra h
      exact hxD (ht x h)
    rw [ex_logged_none hn]
    have step (y : Cell) : ex (fun p _ => ind (¬ Good D T (p.1, .core x :: p.2))) (Function.update t (.core x) (some y)) (next y).logged ≤
        ind (∃ z ∈ x :: D, first (next y) = some z) + ((m + 1 : Nat) : ℚ) * κ * ((x :: D).length + (m + 1 : Nat) + T.length) * ε := by
      by_cases hz : ∃ z ∈ x :: D, first (next y) = some z
      · rw [ind_pos hz]
        refine (ex_le_const fun _ _ _ => ind_le_one _).trans (le_add_of_nonneg_right ?_)
        positivity
      · rw [ind_neg hz, zero_add]
        refine le_trans (ex_mono (g := fun p _ => ind (¬ Good (x :: D) T p)) fun p t' _ => ind_mono fun hg hg' => hg ?_)
          (ih (next y) (h1 y) (x :: D) (fun z hfz hzD => hz ⟨z, hzD, hfz⟩) _ (ht.update x y))
        obtain ⟨g1, g2, g3⟩ := hg'
        refine ⟨?_, ?_, g3⟩
        · simp only [cores, List.nodup_cons]
          exact ⟨fun hm => g2 x hm List.mem_cons_self, g1⟩
        · intro z hz
          simp only [cores, List.mem_cons] at hz
          rcases hz with rfl | hz
          · exact hxD
          · exact fun hD => g2 z hz (List.mem_cons_of_mem _ hD)
    refine (avg_mono step).trans ?_
    rw [avg_add, avg_const]
    have := avg_among (fun y => first (next y)) κ h2 (x :: D)
    refine (add_le_add_left this _).trans ?_
    rw [← add_mul]
    refine mul_le_mul_of_nonneg_right ?_ hε
    have : (0 : ℚ) ≤ T.length := Nat.cast_nonneg _
    have : (0 : ℚ) ≤ (m : ℚ) := Nat.cast_nonneg _
    push_cast [List.length_cons]
    nlinarith

/-- Whoever does not make all of the evaluations does not get the end of the result. `K` has evaluations made before, `done` those made since. -/
theorem walk (κ w : Nat) (hκ : 1 ≤ κ) (T K : List (List Byte)) (m : Nat) (ℓ : Algorithm (List Byte)) (hl : Lane κ w m ℓ) (done : List (List Byte))
    (t : Table) (ht : CoreIn t (K ++ done)) :
    ex (fun p _ => ind ((done ++ cores p.2).Nodup ∧ (∃ x ∈ cores p.2, x ∉ K) ∧ tail p.1 ∈ T)) t ℓ.logged ≤
      (m : ℚ) * κ * (K.length + done.length + m + T.length) * ε := by
  have hε := ε_nonneg
  induction m generalizing ℓ done t with
  | zero =>
    obtain ⟨out, rfl, hw⟩ := lane_zero hl
    refine (ind_neg ?_).le.trans ?_
    · simp [cores]
    · simp
  | succ m ih =>
    obtain ⟨x, next, rfl, ha, hf⟩ := lane_first hl
    have mono : (m : ℚ) * κ * (K.length + (done ++ [x]).length + m + T.length) * ε ≤
        ((m + 1 : Nat) : ℚ) * κ * (K.length + done.length + (m + 1 : Nat) + T.length) * ε := by
      refine mul_le_mul_of_nonneg_right ?_ hε
      rw [List.length_append, List.length_singleton]
      push_cast
      have h1 : (0 : ℚ) ≤ κ * (K.length + done.length + (m + 1) + T.length) := by positivity
      nlinarith
    by_cases hd : x ∈ done
    · refine (ex_mono (g := fun _ _ => 0) fun p t' hr => ?_).trans ?_
      · rw [ind_neg]
        rintro ⟨hn, -⟩
        have : x ∈ cores p.2 := by
          rw [Algorithm.logged] at hr
          cases hr with
          | known y e h =>
            obtain ⟨p', t₁, -, h2⟩ := h.bind
            cases h2
            simp [cores]
          | fresh y e h =>
            obtain ⟨p', t₁, -, h2⟩ := h.bind
            cases h2
            simp [cores]
        exact (List.nodup_append.1 hn).2.2 x hd x this rfl
      · rw [ex_const]
        positivity
    · by_cases hK : x ∈ K
      · have hb (y : Cell) (t' : Table) (ht' : CoreIn t' (K ++ (done ++ [x]))) :
            ex (fun p _ => ind ((done ++ cores (.core x :: p.2)).Nodup ∧ (∃ z ∈ cores (.core x :: p.2), z ∉ K) ∧ tail p.1 ∈ T)) t' (next y).logged ≤
              ((m + 1 : Nat) : ℚ) * κ * (K.length + done.length + (m + 1 : Nat) + T.length) * ε := by
          refine le_trans (ex_mono fun p _ _ => ind_mono ?_) ((ih (next y) (ha.1 y) (done ++ [x]) t' ht').trans mono)
          rintro ⟨h1, ⟨z, hz, hzK⟩, h3⟩
          refine ⟨by simpa [cores] using h1, ⟨z, ?_, hzK⟩, h3⟩
          simp only [cores, List.mem_cons] at hz
          rcases hz with rfl | hz
          · exact absurd hK hzK
          · exact hz
        cases e : t (.core x) with
        | some y =>
          rw [ex_logged_some e]
          refine hb y t fun z hz => ?_
          have := ht z hz
          rw [← List.append_assoc]
          exact List.mem_append_left _ this
        | none =>
          rw [ex_logged_none e]
          refine (avg_mono fun y => hb y _ fun z hz => ?_).trans_eq (avg_const _)
          have := ht.update x y z hz
          simp only [List.mem_cons, List.mem_append] at this ⊢
          tauto
      · have h := fresh κ w hκ T m _ hl (K ++ done) (fun z hz => by
          rw [hf] at hz
          cases hz
          simp [hK, hd]) t ht
        refine le_trans (ex_mono fun p _ _ => ind_mono fun hp hg => hg.2.2 hp.2.2) (h.trans_eq ?_)
        rw [List.length_append]
        push_cast
        ring

/-! ### `scryptROMix` -/

theorem xorBytes_length (a b : List Byte) (h : a.length = b.length) : (xorBytes a b).length = a.length := by
  simp [xorBytes, h]

theorem xor_cancel (a a' b : List Byte) (h : a.length = b.length) (h' : a'.length = b.length) (e : xorBytes a b = xorBytes a' b) : a = a' := by
  have (a : List Byte) (h : a.length = b.length) : xorBytes (xorBytes a b) b = a := by
    apply List.ext_getElem
    · simp [xorBytes, h]
    · intro i h1 h2
      simp [xorBytes, BitVec.xor_assoc]
  rw [← this a h, e, this a' h']

theorem block_xor (a b : List Byte) (i : Nat) : block (xorBytes a b) i = xorBytes (block a i) (block b i) := by
  simp only [block, xorBytes, List.drop_zipWith, List.take_zipWith]

theorem block_length (r : Nat) (B : List Byte) (h : B.length = 128 * r) (i : Nat) (hi : i < 2 * r) : (block B i).length = 64 := by
  rw [block, List.length_take, List.length_drop, h]
  omega

/-- The values before the last one. -/
def Values (r : Nat) (acc : List (List Byte)) : Prop := acc.length = 2 * r - 1 ∧ ∀ y ∈ acc, y.length = 64

theorem shuffle_eq (r : Nat) (ys : List (List Byte)) : shuffle r ys =
    ((List.range r).map (fun i => ys.getD (2 * i) []) ++ (List.range r).map (fun i => ys.getD (2 * i + 1) [])).flatten := by
  rw [shuffle, List.flatten_append, List.flatMap_def, List.flatMap_def]

theorem shuffle_facts (r : Nat) (hr : 1 ≤ r) (acc : List (List Byte)) (ha : Values r acc) (y : Cell) :
    (shuffle r (acc ++ [y.toList])).length = 128 * r ∧ block (shuffle r (acc ++ [y.toList])) (2 * r - 1) = y.toList ∧
      block (shuffle r (acc ++ [y.toList])) 0 = acc.getD 0 [] := by
  obtain ⟨h1, h2⟩ := ha
  have hlen : (acc ++ [y.toList]).length = 2 * r := by
    rw [List.length_append, List.length_singleton]
    omega
  have hall (i : Nat) (hi : i < 2 * r) : ((acc ++ [y.toList]).getD i []).length = 64 := by
    rw [List.getD_eq_getElem?_getD, List.getElem?_eq_getElem (by omega), Option.getD_some]
    have := List.getElem_mem (l := acc ++ [y.toList]) (n := i) (by omega)
    rw [List.mem_append, List.mem_singleton] at this
    rcases this with h | h
    · exact h2 _ h
    · rw [h]; simp
  have hL : ∀ x ∈ (List.range r).map (fun i => (acc ++ [y.toList]).getD (2 * i) []) ++
      (List.range r).map (fun i => (acc ++ [y.toList]).getD (2 * i + 1) []), x.length = 64 := by
    intro x hx
    rw [List.mem_append, List.mem_map, List.mem_map] at hx
    rcases hx with ⟨i, hi, rfl⟩ | ⟨i, hi, rfl⟩ <;> rw [List.mem_range] at hi <;> exact hall _ (by omega)
  rw [shuffle_eq]
  refine ⟨?_, ?_, ?_⟩
  · rw [Verif.Scrypt.flatten_length _ hL]
    simp
    omega
  · rw [Verif.Scrypt.block_flatten _ hL _ (by simp; omega)]
    rw [List.getElem_append_right (by simp; omega)]
    simp only [List.getElem_map, List.length_map, List.length_range, List.getElem_range]
    rw [show 2 * (2 * r - 1 - r) + 1 = acc.length by omega, List.getD_eq_getElem?_getD, List.getElem?_append_right le_rfl]
    simp
  · rw [Verif.Scrypt.block_flatten _ hL _ (by simp; omega)]
    rw [List.getElem_append_left (by simp; omega)]
    simp only [List.getElem_map, List.getElem_range, Nat.mul_zero]
    rw [List.getD_eq_getElem?_getD, List.getElem?_append_left (by omega), List.getD_eq_getElem?_getD]

theorem lane_chain (κ w m : Nat) (hκ : 1 ≤ κ) (k : List (List Byte) → Algorithm (List Byte)) (x b : List Byte) (bs ys : List (List Byte))
    (hb : ∀ b' ∈ bs, b'.length = 64) (hy : ∀ y ∈ ys, y.length = 64)
    (hk : ∀ acc : List (List Byte), acc.length = ys.length + bs.length → (∀ y ∈ acc, y.length = 64) →
      After κ w (Lane κ w m) fun y => k (acc ++ [y.toList])) :
    Lane κ w (m + bs.length + 1) (chain x (b :: bs) ys k) := by
  induction bs generalizing x b ys with
  | nil => exact hk ys rfl hy
  | cons b' bs ih =>
    refine ⟨fun y => ?_, fun z => ?_, fun y out h => ?_⟩
    · refine ih y.toList b' (ys ++ [y.toList]) (fun c hc => hb c (List.mem_cons_of_mem _ hc)) (fun c hc => ?_) fun acc ha => hk acc ?_
      · rw [List.mem_append, List.mem_singleton] at hc
        rcases hc with hc | rfl
        · exact hy _ hc
        · simp
      · rw [ha, List.length_append, List.length_singleton, List.length_cons]
        omega
    · refine le_trans ?_ hκ
      rw [Finset.card_le_one]
      intro a ha c hc
      simp only [Finset.mem_filter, Finset.mem_univ, true_and, chain, first, Option.some.injEq] at ha hc
      exact List.Vector.toList_injective (xor_cancel _ _ b' (by simp [hb]) (by simp [hb]) (ha.trans hc.symm))
    · cases h

theorem first_blockMix (r : Nat) (hr : 1 ≤ r) (B : List Byte) (k : List Byte → Algorithm (List Byte)) :
    first (blockMix r B k) = some (xorBytes (block B (2 * r - 1)) (block B 0)) := by
  obtain ⟨n, hn⟩ : ∃ n, 2 * r = n + 1 := ⟨2 * r - 1, by omega⟩
  rw [blockMix, hn, List.range_succ_eq_map, List.map_cons, chain, first]

theorem lane_blockMix (κ w m r : Nat) (hκ : 1 ≤ κ) (hr : 1 ≤ r) (B : List Byte) (hB : B.length = 128 * r) (k : List Byte → Algorithm (List Byte))
    (hk : ∀ acc, Values r acc → After κ w (Lane κ w m) fun y => k (shuffle r (acc ++ [y.toList]))) :
    Lane κ w (m + 2 * r) (blockMix r B k) := by
  obtain ⟨n, hn⟩ : ∃ n, 2 * r = n + 1 := ⟨2 * r - 1, by omega⟩
  have h := lane_chain κ w m hκ (fun ys => k (shuffle r ys)) (block B (2 * r - 1)) (block B 0)
    ((List.range n).map fun i => block B (i + 1)) [] (fun b hb => by
      rw [List.mem_map] at hb
      obtain ⟨i, hi, rfl⟩ := hb
      rw [List.mem_range] at hi
      exact block_length r B hB _ (by omega)) (by simp) (fun acc h1 h2 => hk acc ⟨by simp at h1; omega, h2⟩)
  rw [List.length_map, List.length_range] at h
  rw [blockMix, show m + 2 * r = m + n + 1 by omega, hn, List.range_succ_eq_map, List.map_cons, List.map_map, ← hn]
  exact h

theorem not_result {a : Algorithm (List Byte)} {x : List Byte} (h : first a = some x) (out : List Byte) : a ≠ .result out := by
  rintro rfl
  cases h

/-- The table. -/
def Filled (r : Nat) (V : List (List Byte)) : Prop := ∀ X ∈ V, X.length = 128 * r

theorem fibers (r N : Nat) (hr : 1 ≤ r) (hN : 1 ≤ N) (V : List (List Byte)) (hV : Filled r V) (hVN : V.length = N) (acc : List (List Byte))
    (ha : Values r acc) (k : List Byte → List Byte → Algorithm (List Byte)) (z : List Byte) :
    (Finset.univ.filter fun y : Cell => first (blockMix r (xorBytes (shuffle r (acc ++ [y.toList]))
      (V.getD (integerify r (shuffle r (acc ++ [y.toList])) % N) [])) (k (shuffle r (acc ++ [y.toList])))) = some z).card ≤ N := by
  have h0 : (acc.getD 0 []).length = 64 := by
    have : 0 < acc.length := by have := ha.1; omega
    rw [List.getD_eq_getElem?_getD, List.getElem?_eq_getElem this, Option.getD_some]
    exact ha.2 _ (List.getElem_mem this)
  refine (Finset.card_le_card_of_injOn (t := Finset.range N) (fun y => integerify r (shuffle r (acc ++ [y.toList])) % N) (fun y _ => ?_) ?_).trans_eq
    (Finset.card_range N)
  · simp only [Finset.coe_range, Set.mem_Iio]
    exact Nat.mod_lt _ (by omega)
  · intro a ha' b hb' e
    simp only [Finset.coe_filter, Finset.mem_univ, true_and, Set.mem_ofPred_eq, first_blockMix r hr, block_xor, Option.some.injEq,
      shuffle_facts r hr acc ha] at ha' hb' e
    rw [e] at ha'
    generalize hj : integerify r (shuffle r (acc ++ [b.toList])) % N = j at ha' hb'
    have hlen : (V.getD j []).length = 128 * r := by
      have : j < V.length := by rw [hVN, ← hj]; exact Nat.mod_lt _ (by omega)
      rw [List.getD_eq_getElem?_getD, List.getElem?_eq_getElem this, Option.getD_some]
      exact hV _ (List.getElem_mem this)
    have l1 := block_length r _ hlen (2 * r - 1) (by omega)
    have l2 := block_length r _ hlen 0 (by omega)
    have l3 : (xorBytes (acc.getD 0 []) (block (V.getD j []) 0)).length = 64 := (xorBytes_length _ _ (by rw [h0, l2])).trans h0
    have l4 (y : Cell) : (xorBytes y.toList (block (V.getD j []) (2 * r - 1))).length = 64 :=
      (xorBytes_length _ _ (by rw [l1, y.toList_length])).trans y.toList_length
    exact List.Vector.toList_injective (xor_cancel _ _ _ (by rw [l1, a.toList_length]) (by rw [l1, b.toList_length])
      (xor_cancel _ _ _ (by rw [l3, l4]) (by rw [l3, l4]) (ha'.trans hb'.symm)))

theorem lane_loop (r N : Nat) (hr : 1 ≤ r) (hN : 1 ≤ N) (V : List (List Byte)) (hV : Filled r V) (hVN : V.length = N) (n : Nat) (X : List Byte)
    (hX : X.length = 128 * r) : Lane N (128 * r) (n * (2 * r)) (loop r N V n X) := by
  induction n generalizing X with
  | zero =>
    rw [Nat.zero_mul]
    exact hX
  | succ n ih =>
    rw [show (n + 1) * (2 * r) = n * (2 * r) + 2 * r by ring, loop]
    have hj : (V.getD (integerify r X % N) []).length = 128 * r := by
      have : integerify r X % N < V.length := by rw [hVN]; exact Nat.mod_lt _ (by omega)
      rw [List.getD_eq_getElem?_getD, List.getElem?_eq_getElem this, Option.getD_some]
      exact hV _ (List.getElem_mem this)
    refine lane_blockMix N (128 * r) (n * (2 * r)) r hN hr _ ((xorBytes_length _ _ (hX.trans hj.symm)).trans hX) _ fun acc ha => ?_
    refine ⟨fun y => ih _ (shuffle_facts r hr acc ha y).1, fun z => ?_, fun y out h => ?_⟩
    · cases n with
      | zero => simp [loop, first]
      | succ n => exact fibers r N hr hN V hV hVN acc ha (fun _ => loop r N V n) z
    · cases n with
      | zero =>
        change Algorithm.result _ = _ at h
        cases h
        obtain ⟨h1, h2, -⟩ := shuffle_facts r hr acc ha y
        refine ⟨h1, ?_⟩
        refine Eq.trans ?_ h2
        rw [block, List.take_of_length_le (by rw [List.length_drop, h1]; omega), show 64 * (2 * r - 1) = 128 * r - 64 by omega]
      | succ n =>
        exact absurd h (not_result (first_blockMix r hr _ _) _)

theorem lane_fill (r N : Nat) (hr : 1 ≤ r) (hN : 1 ≤ N) (n : Nat) (X : List Byte) (hX : X.length = 128 * r) (V : List (List Byte)) (hV : Filled r V)
    (hVN : V.length + n = N) : Lane N (128 * r) (N * (2 * r) + n * (2 * r)) (fill r n X V fun V X => loop r N V N X) := by
  induction n generalizing X V with
  | zero =>
    rw [Nat.zero_mul]
    exact lane_loop r N hr hN V hV hVN N X hX
  | succ n ih =>
    rw [show N * (2 * r) + (n + 1) * (2 * r) = N * (2 * r) + n * (2 * r) + 2 * r by ring, fill]
    refine lane_blockMix N (128 * r) _ r hN hr X hX _ fun acc ha => ?_
    have hV' : Filled r (V ++ [X]) := by
      intro Y hY
      rw [List.mem_append, List.mem_singleton] at hY
      rcases hY with h | rfl
      · exact hV _ h
      · exact hX
    have hVN' : (V ++ [X]).length + n = N := by
      rw [List.length_append, List.length_singleton]
      omega
    refine ⟨fun y => ih _ (shuffle_facts r hr acc ha y).1 _ hV' hVN', fun z => ?_, fun y out h => ?_⟩
    · cases n with
      | zero =>
        obtain ⟨N', rfl⟩ : ∃ N', N = N' + 1 := ⟨N - 1, by omega⟩
        exact fibers r (N' + 1) hr hN _ hV' hVN' acc ha (fun _ => loop r (N' + 1) (V ++ [X]) N') z
      | succ n =>
        refine le_trans ?_ hN
        rw [Finset.card_le_one]
        intro a ha' b hb'
        simp only [Finset.mem_filter, Finset.mem_univ, true_and, fill, first_blockMix r hr, Option.some.injEq, shuffle_facts r hr acc ha] at ha' hb'
        have h0 : (acc.getD 0 []).length = 64 := by
          have : 0 < acc.length := by have := ha.1; omega
          rw [List.getD_eq_getElem?_getD, List.getElem?_eq_getElem this, Option.getD_some]
          exact ha.2 _ (List.getElem_mem this)
        exact List.Vector.toList_injective (xor_cancel _ _ _ (by rw [h0, a.toList_length]) (by rw [h0, b.toList_length]) (ha'.trans hb'.symm))
    · cases n with
      | zero =>
        obtain ⟨N', rfl⟩ : ∃ N', N = N' + 1 := ⟨N - 1, by omega⟩
        exact absurd h (not_result (first_blockMix r hr _ _) _)
      | succ n => exact absurd h (not_result (first_blockMix r hr _ _) _)

theorem lane_roMix (r N : Nat) (hr : 1 ≤ r) (hN : 1 ≤ N) (B : List Byte) (hB : B.length = 128 * r) :
    Lane N (128 * r) (4 * r * N) (roMix r N B) := by
  have h := lane_fill r N hr hN N B hB [] (by simp [Filled]) (by simp)
  rw [show N * (2 * r) + N * (2 * r) = 4 * r * N by ring] at h
  exact h

theorem first_roMix (r N : Nat) (hr : 1 ≤ r) (hN : 1 ≤ N) (B : List Byte) :
    first (roMix r N B) = some (xorBytes (block B (2 * r - 1)) (block B 0)) := by
  obtain ⟨n, rfl⟩ : ∃ n, N = n + 1 := ⟨N - 1, by omega⟩
  rw [roMix, fill, first_blockMix r hr]

end Spec.ScryptPrice
