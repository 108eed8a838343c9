import Verif.Proof.GuessGames
import Verif.Proof.ScryptPrice

/-!
The attacker that tries passwords one after the other, with scrypt: what it evaluates, and how often it is right.
-/

namespace Spec.ScryptPrice
open Spec Spec.Games
open Spec.KeyGames (count)
open Spec.ScryptGames (Params)
open Spec.Scrypt (block integerify)

attribute [local irreducible] avg
set_option linter.constructorNameAsVariable false

variable {β γ : Type}

/-! ### What is evaluated -/

theorem chain_within (h c : Nat) (x : List Byte) (bs ys : List (List Byte)) (k : List (List Byte) → Algorithm β) (hk : ∀ ys, (k ys).Within h c) :
    (chain x bs ys k).Within h (bs.length + c) := by
  induction bs generalizing x ys with
  | nil => simpa [chain] using hk ys
  | cons b bs ih =>
    refine ⟨by rw [List.length_cons]; omega, fun y => ?_⟩
    rw [List.length_cons, show bs.length + 1 + c - 1 = bs.length + c by omega]
    exact ih _ _

theorem blockMix_within (h c r : Nat) (B : List Byte) (k : List Byte → Algorithm β) (hk : ∀ B, (k B).Within h c) :
    (blockMix r B k).Within h (2 * r + c) := by
  have := chain_within h c (block B (2 * r - 1)) ((List.range (2 * r)).map (block B)) [] (fun ys => k (shuffle r ys)) fun ys => hk _
  rwa [List.length_map, List.length_range] at this

theorem fill_within (h c r n : Nat) (X : List Byte) (V : List (List Byte)) (k : List (List Byte) → List Byte → Algorithm β) (hk : ∀ V X, (k V X).Within h c) :
    (fill r n X V k).Within h (n * (2 * r) + c) := by
  induction n generalizing X V with
  | zero => simpa [fill] using hk V X
  | succ n ih =>
    rw [show (n + 1) * (2 * r) + c = 2 * r + (n * (2 * r) + c) by ring]
    exact blockMix_within h _ r X _ fun X' => ih _ _

theorem loop_within (r N n : Nat) (V : List (List Byte)) (X : List Byte) : (loop r N V n X).Within 0 (n * (2 * r)) := by
  induction n generalizing X with
  | zero => trivial
  | succ n ih =>
    rw [show (n + 1) * (2 * r) = 2 * r + n * (2 * r) by ring]
    exact blockMix_within 0 _ r _ _ fun X' => ih _

theorem roMix_within (r N : Nat) (B : List Byte) : (roMix r N B).Within 0 (4 * r * N) := by
  rw [show 4 * r * N = N * (2 * r) + N * (2 * r) by ring]
  exact fill_within 0 _ r N B [] _ fun V X => loop_within r N N V X

theorem blocks_within (h c : Nat) (key salt : List Byte) (i l : Nat) (k : List Byte → Algorithm β) (hk : ∀ t, (k t).Within h c) :
    (blocks key salt i l k).Within (l + h) c := by
  induction l generalizing i k with
  | zero => simpa [blocks] using hk []
  | succ l ih =>
    refine ⟨by omega, fun y => ?_⟩
    rw [show l + 1 + h - 1 = l + h by omega]
    exact ih _ _ fun t => hk _

theorem Within.bind {h c h' c' : Nat} {a : Algorithm β} {k : β → Algorithm γ} (ha : a.Within h c) (hk : ∀ b, (k b).Within h' c') :
    (a.bind k).Within (h + h') (c + c') := by
  induction a generalizing h c with
  | result b =>
    have mono (a : Algorithm γ) : ∀ {h c h' c'}, h ≤ h' → c ≤ c' → a.Within h c → a.Within h' c' := by
      clear hk
      induction a with
      | result b => exact fun _ _ _ => trivial
      | eval q next ih =>
        intro h c h' c' h1 h2 h3
        cases q with
        | hmac key x => exact ⟨h3.1.trans h1, fun y => ih y (by omega) h2 (h3.2 y)⟩
        | core x => exact ⟨h3.1.trans h2, fun y => ih y h1 (by omega) (h3.2 y)⟩
    exact mono _ (by omega) (by omega) (hk b)
  | eval q next ih =>
    cases q with
    | hmac key x =>
      have h1 := ha.1
      refine ⟨by omega, fun y => ?_⟩
      rw [show h + h' - 1 = h - 1 + h' by omega]
      exact ih y (ha.2 y)
    | core x =>
      have h1 := ha.1
      refine ⟨by omega, fun y => ?_⟩
      rw [show c + c' - 1 = c - 1 + c' by omega]
      exact ih y (ha.2 y)

theorem lanes_within (P : Params) (key salt : List Byte) (i l : Nat) : (lanes P key salt i l).Within (l * (4 * P.r)) (l * (4 * P.r * P.N)) := by
  induction l generalizing i with
  | zero => trivial
  | succ l ih =>
    rw [show (l + 1) * (4 * P.r) = 4 * P.r + 0 + l * (4 * P.r) by ring, show (l + 1) * (4 * P.r * P.N) = 4 * P.r * P.N + l * (4 * P.r * P.N) by ring]
    refine Within.bind (blocks_within 0 _ _ _ _ _ _ fun B => roMix_within _ _ _) fun X => ?_
    have := Within.bind (ih (i + 1)) (k := fun rest => .result (X ++ rest)) (h' := 0) (c' := 0) fun _ => trivial
    exact this

theorem mix_within (P : Params) (key salt : List Byte) : (mix P key salt).Within (4 * P.r * P.p) (price P) := by
  have := lanes_within P key salt 0 P.p
  rwa [show P.p * (4 * P.r) = 4 * P.r * P.p by ring, show P.p * (4 * P.r * P.N) = price P by rw [price]; ring] at this

theorem attempt_within (P : Params) (rs : List Request) (hr : ∀ r ∈ rs, r.len = 32) (L : List (Nat × List Byte))
    (hL : ∀ w ∈ L, w.1 < rs.length) (keys : List (List Byte)) : (attempt P rs L keys).Within (L.length * (4 * P.r * P.p + 1)) (L.length * price P) := by
  induction L with
  | nil => trivial
  | cons w L ih =>
    obtain ⟨u, key⟩ := w
    have hu := hL (u, key) List.mem_cons_self
    have h2 := hr _ (List.getElem_mem hu)
    have e : rs.getD u ⟨[], 0⟩ = rs[u] := by rw [List.getD_eq_getElem?_getD, List.getElem?_eq_getElem hu]; rfl
    rw [attempt, e, List.length_cons, show (L.length + 1) * (4 * P.r * P.p + 1) = 4 * P.r * P.p + (1 + L.length * (4 * P.r * P.p + 1)) by ring,
      show (L.length + 1) * price P = price P + L.length * price P by ring]
    refine Within.bind (mix_within P key _) fun B => ?_
    simp only [h2]
    refine blocks_within _ _ key B 0 1 _ fun t => ?_
    split_ifs
    · trivial
    · exact ih fun w hw => hL w (List.mem_cons_of_mem _ hw)

/-! ### How often it is right -/

/-- What happens with every function happens with random ones. -/
theorem random_of_run (good : β → Bool) (a : Algorithm β) (t : Table) (h : ∀ F : (q : Question) → List.Vector Byte q.size, (∀ q y, t q = some y → F q = y) → good (a.run F) = true) :
    a.random good t = 1 := by
  induction a generalizing t with
  | result b =>
    have := h (fun q => (t q).getD (List.Vector.replicate _ 0)) fun q y e => by simp [e]
    rw [Algorithm.random]
    exact if_pos this
  | eval q next ih =>
    cases e : t q with
    | some y =>
      simp only [Algorithm.random, e]
      refine ih y t fun F hF => ?_
      have := h F hF
      rwa [Algorithm.run, hF _ _ e] at this
    | none =>
      simp only [Algorithm.random, e]
      have (y : List.Vector Byte q.size) : (next y).random good (Function.update t q (some y)) = 1 := by
        refine ih y _ fun F hF => ?_
        have h1 := h F fun q' z e' => by
          refine hF q' z ?_
          rw [Function.update_of_ne (by rintro rfl; rw [e] at e'; cases e')]
          exact e'
        rwa [Algorithm.run, hF q y (by rw [Function.update_self])] at h1
      simp only [this, avg_const]

theorem run_bind (F : (q : Question) → List.Vector Byte q.size) (a : Algorithm β) (k : β → Algorithm γ) : (a.bind k).run F = (k (a.run F)).run F := by
  induction a with
  | result b => rfl
  | eval q next ih => exact ih _

theorem blocks_bind (key salt : List Byte) (i l : Nat) (k : List Byte → Algorithm β) : blocks key salt i l k = (blocks key salt i l .result).bind k := by
  induction l generalizing i β k with
  | zero => rfl
  | succ l ih =>
    rw [blocks, blocks, Algorithm.bind]
    congr 1
    funext y
    rw [ih, ih (i + 1) fun rest => Algorithm.result (y.toList ++ rest)]
    generalize blocks key salt (i + 1) l Algorithm.result = a
    induction a with
    | result b => rfl
    | eval q next ih =>
      rw [Algorithm.bind, Algorithm.bind, Algorithm.bind]
      congr 1
      funext z
      exact ih z

/-- The key that scrypt derives with the functions `F`. -/
def keyOf (F : (q : Question) → List.Vector Byte q.size) (P : Params) (key : List Byte) (r : Request) : List Byte :=
  ((blocks key ((mix P key r.salt).run F) 0 (count r.len) .result).run F).take r.len

theorem run_mixAll (F : (q : Question) → List.Vector Byte q.size) (P : Params) (key : Nat → List Byte) (u : Nat) (rs : List Request) :
    (mixAll P key u rs).run F = rs.mapIdx fun i r => (mix P (key (u + i)) r.salt).run F := by
  induction rs generalizing u with
  | nil => rfl
  | cons r rs ih =>
    rw [mixAll, run_bind, run_bind, ih, List.mapIdx_cons]
    simp only [Algorithm.run, Nat.add_assoc, Nat.add_comm 1, Nat.add_zero]

theorem run_finish (F : (q : Question) → List.Vector Byte q.size) (P : Params) (key : Nat → List Byte) (u : Nat) (rs : List Request)
    (k : List (List Byte) → Algorithm β) :
    (finish key u rs (rs.mapIdx fun i r => (mix P (key (u + i)) r.salt).run F) k).run F = (k (rs.mapIdx fun i r => keyOf F P (key (u + i)) r)).run F := by
  induction rs generalizing u k with
  | nil => rfl
  | cons r rs ih =>
    rw [List.mapIdx_cons, finish, blocks_bind, run_bind]
    have := ih (u + 1) fun keys => k (keyOf F P (key u) r :: keys)
    simp only [Nat.add_assoc, Nat.add_comm 1] at this
    rw [List.mapIdx_cons]
    exact this

theorem run_derive (F : (q : Question) → List.Vector Byte q.size) (P : Params) (key : Nat → List Byte) (rs : List Request)
    (k : List (List Byte) → Algorithm β) : (derive P key rs k).run F = (k (rs.mapIdx fun i r => keyOf F P (key i) r)).run F := by
  have := run_finish F P key 0 rs k
  simp only [Nat.zero_add] at this
  rw [derive, run_bind, run_mixAll]
  simp only [Nat.zero_add]
  exact this

theorem attempt_run (F : (q : Question) → List.Vector Byte q.size) (P : Params) (key : Nat → List Byte) (rs : List Request) (L : List (Nat × List Byte))
    (hL : ∀ w ∈ L, w.1 < rs.length) (h : ∃ w ∈ L, key w.1 = w.2) (keys : List (List Byte)) (hk : keys = rs.mapIdx fun i r => keyOf F P (key i) r) :
    (attempt P rs L keys).run F = true := by
  induction L with
  | nil => simp at h
  | cons w L ih =>
    obtain ⟨u, b⟩ := w
    rw [attempt, run_bind, blocks_bind, run_bind]
    have hu := hL (u, b) List.mem_cons_self
    split_ifs with hif
    · rfl
    · refine ih (fun w hw => hL w (List.mem_cons_of_mem _ hw)) ?_
      obtain ⟨w, hw, e⟩ := h
      rcases List.mem_cons.1 hw with rfl | hw
      · exfalso
        apply hif
        subst hk
        dsimp only at hu e ⊢
        rw [List.getElem?_mapIdx, List.getElem?_eq_getElem hu, List.getD_eq_getElem?_getD, List.getElem?_eq_getElem hu, ← e]
        rfl
      · exact ⟨w, hw, e⟩

theorem uniform_old (rs : List Request) (f : List (List Byte) → ℚ) : uniform rs f = Spec.GuessGames.uniform (rs.map fun r => ⟨r.salt, 1, r.len⟩) f := by
  induction rs generalizing f with
  | nil => rfl
  | cons r rs ih => simp only [uniform, ih]; rfl

theorem attempt_ideal (P : Params) (rs : List Request) (hr : ∀ r ∈ rs, r.len = 32) (L : List (Nat × List Byte)) (t : Table) :
    (uniform rs fun keys => ex (fun b _ => if id b then 1 else 0) t (attempt P rs L keys)) ≤ L.length * (1 / 2 ^ 256) := by
  induction L generalizing t with
  | nil => simp [attempt, ex, uniform_const]
  | cons w L ih =>
    obtain ⟨u, b⟩ := w
    let r := rs.getD u ⟨[], 0⟩
    have e (keys : List (List Byte)) : ex (fun b _ => if id b then 1 else 0) t (attempt P rs ((u, b) :: L) keys) =
        ex (fun B t₁ => ex (fun s t₂ => ex (fun b _ => if id b then (1 : ℚ) else 0) t₂
          (if keys[u]? = some (s.take r.len) then .result true else attempt P rs L keys)) t₁ (blocks b B 0 (count r.len) .result)) t (mix P b r.salt) := by
      rw [attempt, ex_bind]
      refine ex_congr fun B t₁ _ => ?_
      rw [blocks_bind, ex_bind]
    simp only [e]
    rw [← ex_uniform]
    refine ex_le_const fun B t₁ _ => ?_
    rw [← ex_uniform]
    refine ex_le_const fun s t₂ _ => ?_
    have h1 : (uniform rs fun keys => if keys[u]? = some (s.take r.len) then (1 : ℚ) else 0) ≤ 1 / 2 ^ 256 := by
      rw [uniform_old, ← Spec.GuessGames.ε_eq]
      refine Spec.GuessGames.uniform_hit _ (fun r' hr' => ?_) u _
      obtain ⟨r', h, rfl⟩ := List.mem_map.1 hr'
      exact hr r' h
    refine le_trans (uniform_mono (g := fun keys => (if keys[u]? = some (s.take r.len) then (1 : ℚ) else 0) +
      ex (fun b _ => if id b then 1 else 0) t₂ (attempt P rs L keys)) fun keys => ?_) ?_
    · have h0 : 0 ≤ ex (fun b _ => if id b then (1 : ℚ) else 0) t₂ (attempt P rs L keys) := ex_nonneg fun b _ => by split_ifs <;> norm_num
      split_ifs
      · rw [ex]
        simpa using h0
      · rw [zero_add]
    · rw [uniform_old, Spec.GuessGames.uniform_add, ← uniform_old, ← uniform_old]
      have h2 := ih t₂
      push_cast [List.length_cons]
      linarith

end Spec.ScryptPrice
