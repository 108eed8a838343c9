import Verif.Props.Sha256
import Verif.Spec.Multicollision
import Mathlib.Data.Fintype.BigOperators
import Mathlib.Data.Fintype.Pigeonhole
import Mathlib.Data.Fintype.Vector

/-! Property C115: `k` collisions of the compression function give `2^k` messages with one digest. -/

namespace Verif.Props.Multicollision
open Verif Verif.Sha256 Spec.Sha256 Verif.Props.Sha256

theorem found_length (search : State → Block × Block) (k : Nat) (h : State) : (found search k h).length = k := by
  induction k generalizing h with
  | zero => rfl
  | succ k ih => rw [found, List.length_cons, ih]

theorem choose_length (pairs : List (Block × Block)) (choice : List Bool) (h : choice.length = pairs.length) :
    (choose pairs choice).length = 64 * pairs.length := by
  induction pairs generalizing choice with
  | nil => cases choice <;> rfl
  | cons p ps ih =>
    cases choice with
    | nil => simp at h
    | cons c cs =>
      have := ih cs (by simpa using h)
      simp only [choose, List.zipWith_cons_cons, List.flatten_cons, List.length_append, List.length_cons] at this ⊢
      rw [this]
      split <;> simp <;> omega

theorem choose_inj (pairs : List (Block × Block)) (hne : ∀ p ∈ pairs, p.1 ≠ p.2) (c c' : List Bool) (h : c.length = pairs.length)
    (h' : c'.length = pairs.length) (e : choose pairs c = choose pairs c') : c = c' := by
  induction pairs generalizing c c' with
  | nil => rw [List.length_eq_zero_iff.mp h, List.length_eq_zero_iff.mp h']
  | cons p ps ih =>
    match c, c', h, h' with
    | b :: c, b' :: c', h, h' =>
      simp only [choose, List.zipWith_cons_cons, List.flatten_cons] at e
      obtain ⟨e1, e2⟩ := List.append_inj e (by split <;> split <;> simp)
      have := ih (fun q hq => hne q (List.mem_cons_of_mem _ hq)) c c' (by simpa using h) (by simpa using h') e2
      have hp := hne p List.mem_cons_self
      have hp' : p.1.toList ≠ p.2.toList := fun x => hp (Vector.toList_inj.mp x)
      rw [this]
      cases b <;> cases b' <;> simp_all

theorem hashAll_block (h : State) (b : Block) : hashAll h b.toList = next h b := by
  rw [hashAll, show b.toList.length / 64 = 1 by simp]
  rfl

/-- All choices lead to one hash value. -/
theorem choose_hash (search : State → Block × Block) (hs : Searches search) (k : Nat) (h : State) : ∃ h', ∀ choice : List Bool,
    choice.length = k → hashAll h (choose (found search k h) choice) = h' := by
  induction k generalizing h with
  | zero => exact ⟨h, fun c _ => by simp [choose, found, hashAll, hashBlocks]⟩
  | succ k ih =>
    obtain ⟨h', e⟩ := ih (next h (search h).1)
    refine ⟨h', fun c hc => ?_⟩
    match c, hc with
    | b :: c, hc =>
      have : choose (found search (k + 1) h) (b :: c) =
          (if b then (search h).2 else (search h).1).toList ++ choose (found search k (next h (search h).1)) c := by
        rw [found]
        cases b <;> rfl
      rw [this, hashAll_split _ _ _ 1 (by simp)]
      rw [show hashBlocks h (if b then (search h).2 else (search h).1).toList 1 = next h (if b then (search h).2 else (search h).1) from rfl]
      rw [show next h (if b then (search h).2 else (search h).1) = next h (search h).1 by
        cases b
        · rfl
        · exact (hs h).2.symm]
      exact e c (by simpa using hc)

/-- **C115.** `k` searches for a collision of the compression function of SHA-256, each started where the one before it ended, give
`2^k` different messages with one digest: between any beginning of whole blocks and any end, one block can be chosen out of each
of the `k` pairs, and for all the `2^k` choices the hash, computed by the program from any pieces, is the same. -/
theorem C115_many (T : Target) (search : State → Block × Block) (hs : Searches search) (k n : Nat) (start : List U8)
    (hn : start.length = 64 * n) (rest : List U8) (hl : 8 * (start.length + 64 * k + rest.length) < 2 ^ T.bits) :
    ∃ pairs : List (Block × Block), pairs = found search k (hashAll initial start) ∧ pairs.length = k ∧
      (∀ c c' : List Bool, c.length = k → c'.length = k → choose pairs c = choose pairs c' → c = c') ∧
      ∃ digest, ∀ (c : List Bool) (chunks : List (List U8)), c.length = k → chunks.flatten = start ++ choose pairs c ++ rest →
        hashChunks T chunks = .ok digest := by
  have hlen := found_length search k (hashAll initial start)
  refine ⟨_, rfl, hlen, fun c c' hc hc' => ?_, ?_⟩
  · refine choose_inj _ ?_ c c' (by rw [hlen, hc]) (by rw [hlen, hc'])
    intro p hp
    have : ∀ (k : Nat) (h : State), p ∈ found search k h → p.1 ≠ p.2 := by
      intro k
      induction k with
      | zero => intro h hp; cases hp
      | succ k ih =>
        intro h hp
        rcases List.mem_cons.mp hp with rfl | hp
        · exact (hs h).1
        · exact ih _ hp
    exact this k _ hp
  · obtain ⟨h', e⟩ := choose_hash search hs k (hashAll initial start)
    refine ⟨output (hashAll h' (rest ++ padding (start.length + 64 * k + rest.length) (8 * (start.length + 64 * k + rest.length)))), ?_⟩
    intro c chunks hc hch
    have hcl : (choose (found search k (hashAll initial start)) c).length = 64 * k := by rw [choose_length _ _ (by rw [hlen, hc]), hlen]
    have hfl : chunks.flatten.length = start.length + 64 * k + rest.length := by
      rw [hch, List.length_append, List.length_append, hcl]
    have hall : ∀ (h : State) (a b : List U8) (m : Nat), a.length = 64 * m → hashAll h (a ++ b) = hashAll (hashAll h a) b := by
      intro h a b m ha
      rw [hashAll_split _ _ _ m ha]
      conv => rhs; rw [hashAll.eq_def h a, ha, Nat.mul_div_cancel_left _ (by decide)]
    rw [C01_sha256_correct T chunks (by rw [hfl]; exact hl), Spec.Sha256.sha256, sha256WithLength, hfl, hch]
    rw [List.append_assoc, List.append_assoc, hall _ _ _ n hn, hall _ _ _ k hcl, e c hc]

/-- **C115.** So a second hash function beside SHA-256 does not help much: whatever function with fewer than `2^k` values it is,
two of these messages have the same digest and the same value of the other function. -/
theorem C115_beside (T : Target) (search : State → Block × Block) (hs : Searches search) (k : Nat) (hl : 8 * (64 * k) < 2 ^ T.bits)
    {α : Type} [Fintype α] (other : List U8 → α) (hα : Fintype.card α < 2 ^ k) :
    ∃ c c' : List Bool, c.length = k ∧ c'.length = k ∧
      let m := choose (found search k initial) c
      let m' := choose (found search k initial) c'
      m ≠ m' ∧ other m = other m' ∧ ∃ digest, hashChunks T [m] = .ok digest ∧ hashChunks T [m'] = .ok digest := by
  obtain ⟨pairs, hp, _, hinj, d, hd⟩ := C115_many T search hs k 0 [] rfl [] (by simpa using hl)
  have hp : pairs = found search k initial := hp
  obtain ⟨c, c', hne, e⟩ := Fintype.exists_ne_map_eq_of_card_lt
    (fun c : List.Vector Bool k => other (choose pairs c.toList)) (by
      rw [card_vector, Fintype.card_bool]
      exact hα)
  refine ⟨c.toList, c'.toList, c.toList_length, c'.toList_length, ?_⟩
  rw [← hp]
  refine ⟨fun x => hne ?_, e, d, hd c.toList _ c.toList_length (by simp), hd c'.toList _ c'.toList_length (by simp)⟩
  exact List.Vector.eq _ _ (hinj _ _ c.toList_length c'.toList_length x)

/-- Such searches exist: there are more blocks than hash values. -/
theorem searches_exist : ∃ search, Searches search := by
  have : ∀ h : State, ∃ p : Block × Block, p.1 ≠ p.2 ∧ next h p.1 = next h p.2 := by
    intro h
    obtain ⟨f, g, hfg, hd⟩ := Fintype.exists_ne_map_eq_of_card_lt
      (fun (f : Fin 64 → Fin (2 ^ 8)) (i : Fin 8) => ((next h (Vector.ofFn fun j => BitVec.ofFin (f j)))[i]).toFin) (by
        simp only [Fintype.card_pi, Fintype.card_fin, Finset.prod_const, Finset.card_univ]
        have hlt : ∀ a b : Nat, a < b → 2 ^ a < 2 ^ b := fun a b hab => Nat.pow_lt_pow_right (by decide) hab
        rw [← Nat.pow_mul, ← Nat.pow_mul]
        exact hlt _ _ (by decide))
    refine ⟨(Vector.ofFn fun j => BitVec.ofFin (f j), Vector.ofFn fun j => BitVec.ofFin (g j)), fun x => hfg ?_, ?_⟩
    · funext i
      have := congrArg (fun v : Block => v[i]) x
      simpa using this
    · apply Vector.ext
      intro i hi
      exact BitVec.eq_of_toFin_eq (congrFun hd ⟨i, hi⟩)
  choose s hs using this
  exact ⟨s, hs⟩

/-- The hypotheses are met on every target: 20 searches give two messages that agree in SHA-256 and in their first 18 bits of any
other hash, and `2^20` messages that begin with one block of zeros and end with the same word. -/
example (T : Target) (other : List U8 → Fin (2 ^ 18)) : ∃ search, Searches search ∧
    (∃ c c' : List Bool, choose (found search 20 initial) c ≠ choose (found search 20 initial) c' ∧
      other (choose (found search 20 initial) c) = other (choose (found search 20 initial) c')) ∧
    ∃ pairs : List (Block × Block), pairs.length = 20 ∧ ∃ digest, ∀ c : List Bool, c.length = 20 →
      hashChunks T [List.replicate 64 0, choose pairs c ++ [0x65, 0x6e, 0x64]] = .ok digest := by
  have hb := T.two_pow_ge
  obtain ⟨s, hs⟩ := searches_exist
  obtain ⟨c, c', _, _, h1, h2, _⟩ := C115_beside T s hs 20 (by omega) other (by rw [Fintype.card_fin]; norm_num)
  obtain ⟨pairs, _, h3, _, d, h4⟩ := C115_many T s hs 20 1 (List.replicate 64 0) (by simp) [0x65, 0x6e, 0x64] (by
    simp only [List.length_replicate, List.length_cons, List.length_nil]; omega)
  exact ⟨s, hs, ⟨c, c', h1, h2⟩, pairs, h3, d, fun c hc => h4 c _ hc (by simp)⟩

end Verif.Props.Multicollision
