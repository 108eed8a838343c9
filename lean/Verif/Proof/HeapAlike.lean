import Verif.Proof.Heap
import Mathlib.Data.List.Forall2

/-! How much memory `derive` takes when it joins the lanes depends on their number and size only. -/

namespace Verif.Heap
open Verif Verif.Scrypt Verif.Growing

/-- The same with the octets gone. -/
def blank (xs : List (U8 × Nat)) : List (U8 × Nat) := xs.map fun p => (0, p.2)

theorem lift_run {α β : Type} (m : M α) (g : α → H β) (h : Heap) : (Heap.lift m >>= g) h = m >>= fun a => g a h := by
  cases m <;> rfl

theorem extend_blank (T : Target) (G : Policy) (lower : Nat → Nat) (xs : List (U8 × Nat)) (v v' : VecU8) (hc : v.cap = v'.cap)
    (hd : v.data.length = v'.data.length) (h : Heap) :
    (extend T G lower v xs h).map (fun p => (p.1.cap, p.2)) = (extend T G lower v' (blank xs) h).map (fun p => (p.1.cap, p.2)) := by
  induction xs generalizing v v' h with
  | nil => show Except.ok (v.cap, h) = Except.ok (v'.cap, h); rw [hc]
  | cons p xs ih =>
    obtain ⟨x, g⟩ := p
    obtain ⟨d, c⟩ := v
    obtain ⟨d', c'⟩ := v'
    change c = c' at hc
    change d.length = d'.length at hd
    subst hc
    rw [show blank ((x, g) :: xs) = (0, g) :: blank xs from rfl, extend, extend, lift_run, lift_run,
      show (blank xs).length = xs.length by simp [blank]]
    show (Except.map _ ((if d.length = c then _ else _) >>= _)) = (Except.map _ ((if d'.length = c then _ else _) >>= _))
    rw [← hd]
    by_cases hf : d.length = c
    · rw [if_pos hf, if_pos hf, VecU8.reserve, VecU8.reserve]
      dsimp only
      rw [← hd]
      rw [if_neg (by omega), if_neg (by omega)]
      generalize G.grow c (d.length + (lower xs.length + 1)) = k
      cases T.reserve 1 k with
      | error e => rfl
      | ok _ =>
        show (Except.map _ ((if k ≠ c then _ else _ : H VecU8) h)) = (Except.map _ ((if k ≠ c then _ else _ : H VecU8) h))
        by_cases h2 : k ≠ c
        · rw [if_pos h2, if_pos h2]
          exact ih ⟨d ++ [x], k⟩ ⟨d' ++ [0], k⟩ rfl (by simp [hd]) _
        · rw [if_neg h2, if_neg h2]
          exact ih ⟨d ++ [x], k⟩ ⟨d' ++ [0], k⟩ rfl (by simp [hd]) _
    · rw [if_neg hf, if_neg hf]
      show (Except.map _ ((if c ≠ c then _ else _ : H VecU8) h)) = (Except.map _ ((if c ≠ c then _ else _ : H VecU8) h))
      rw [if_neg (by simp), if_neg (by simp)]
      exact ih ⟨d ++ [x], c⟩ ⟨d' ++ [0], c⟩ rfl (by simp [hd]) _

theorem collect_blank (T : Target) (G : Policy) (lower : Nat → Nat) (xs : List (U8 × Nat)) (h : Heap) :
    (collect T G lower xs h).map (fun p => (p.1.cap, p.2)) = (collect T G lower (blank xs) h).map (fun p => (p.1.cap, p.2)) := by
  cases xs with
  | nil => rfl
  | cons p xs =>
    obtain ⟨x, g⟩ := p
    rw [show blank ((x, g) :: xs) = (0, g) :: blank xs from rfl, collect, collect, lift_run, lift_run,
      show (blank xs).length = xs.length by simp [blank]]
    cases T.reserve 1 (max 8 (lower xs.length + 1)) with
    | error e => rfl
    | ok _ => exact extend_blank T G lower xs ⟨[x], max 8 (lower xs.length + 1)⟩ ⟨[0], max 8 (lower xs.length + 1)⟩ rfl rfl _

theorem blank_flatMap {α : Type} (f g : α → Nat → List (U8 × Nat)) (l l' : List α) (R : α → α → Prop) (hl : List.Forall₂ R l l') (m : Nat)
    (h : ∀ x y i, R x y → blank (f x i) = blank (g y i)) :
    blank ((l.zipIdx m).flatMap fun (x, i) => f x i) = blank ((l'.zipIdx m).flatMap fun (x, i) => g x i) := by
  induction hl generalizing m with
  | nil => rfl
  | cons hx _ ih =>
    rw [List.zipIdx_cons, List.zipIdx_cons, List.flatMap_cons, List.flatMap_cons, blank, blank, List.map_append, List.map_append]
    exact congrArg₂ _ (h _ _ _ hx) (ih _)

theorem blank_block (more : Nat) (x y : Block) (h : x.length = y.length) : blank (blockOctets more x) = blank (blockOctets more y) := by
  unfold blank blockOctets
  rw [List.map_map, List.map_map]
  apply List.ext_getElem
  · simp [h]
  · intro i h1 h2
    simp [h]

theorem blank_octets (T : Target) (r : Nat) (b b' : List (List Block)) (hl : b.length = b'.length) (h : ∀ x ∈ b, Shape r x) (h' : ∀ x ∈ b', Shape r x) :
    blank (octets T b) = blank (octets T b') := by
  unfold octets
  rw [← hl]
  refine blank_flatMap (fun lane i => laneOctets T (if i + 1 = b.length then b.length * T.vecSize else 0) lane)
    (fun lane i => laneOctets T (if i + 1 = b.length then b.length * T.vecSize else 0) lane) b b' (fun x y => Shape r x ∧ Shape r y) ?_ 0 ?_
  · exact List.forall₂_iff_get.2 ⟨hl, fun i h1 h2 => ⟨h _ (List.get_mem _ _), h' _ (List.get_mem _ _)⟩⟩
  · intro x y i ⟨hx, hy⟩
    show blank (laneOctets T _ x) = blank (laneOctets T _ y)
    generalize (if i + 1 = b.length then b.length * T.vecSize else 0) = more
    unfold laneOctets
    rw [hx.1, hy.1]
    refine blank_flatMap (fun block i => blockOctets (if i + 1 = 2 * r then 2 * r * T.vecSize + more else 0) block)
      (fun block i => blockOctets (if i + 1 = 2 * r then 2 * r * T.vecSize + more else 0) block) x y (fun a b => a.length = b.length) ?_ 0 ?_
    · exact List.forall₂_iff_get.2 ⟨hx.1.trans hy.1.symm, fun i h1 h2 => (hx.2 _ (List.get_mem _ _)).trans (hy.2 _ (List.get_mem _ _)).symm⟩
    · intro a b i hab
      exact blank_block _ _ _ hab

/-- Two runs with the same parameters take the same. -/
theorem derive_alike (T : Target) (G : Policy) (lower : Nat → Nat) (hl : ∀ n, lower n ≤ n) (inPlace : Bool) (s : Scrypt) (P S out P' S' out' : List U8)
    (hr : 1 ≤ s.r) (hn : ∃ k, s.n = 2 ^ k) (hp : 1 ≤ s.p) (hmem : s.p * 128 * s.r ≤ T.isizeMax) (L K : Int) (hLK : L ≤ K)
    (a a' : List U8 × Except ScryptError Unit) (h h' : Heap) (e : derive T G lower inPlace s P S out ⟨L, K⟩ = .ok (a, h))
    (e' : derive T G lower inPlace s P' S' out' ⟨L, K⟩ = .ok (a', h')) : h = h' := by
  obtain ⟨h1, -, -, ms, w, h2, h3, h4, h5, h6⟩ := derive_heap T G lower hl inPlace s P S out hr hn hp hmem L K hLK a h e
  obtain ⟨h1', -, -, ms', w', h2', h3', h4', h5', h6'⟩ := derive_heap T G lower hl inPlace s P' S' out' hr hn hp hmem L K hLK a' h' e'
  have h7 := collect_blank T G lower (octets T ms) (beforeJoin T inPlace s.r s.n s.p L K)
  have h7' := collect_blank T G lower (octets T ms') (beforeJoin T inPlace s.r s.n s.p L K)
  rw [blank_octets T s.r ms ms' (h3.trans h3'.symm) h4 h4', ← h7', h6, h6'] at h7
  injection h7 with h7
  injection h7 with _ h7
  obtain ⟨x, y⟩ := h
  obtain ⟨x', y'⟩ := h'
  obtain ⟨u, v⟩ := h2
  obtain ⟨u', v'⟩ := h2'
  injection h7 with _ h7
  change x = L at h1
  change x' = L at h1'
  change v = y at h5
  change v' = y' at h5'
  rw [h1, h1', ← h5, ← h5', h7]

end Verif.Heap
