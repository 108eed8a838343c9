import Verif.Proof.Growing
import Verif.Proof.Counted
import Verif.Props.Scrypt

/-! `collect()` of an iterator that does not know its length, in `derive` (`/repo/src/scrypt.rs`). -/

namespace Verif.Growing
open Verif Verif.Scrypt

theorem extend_spec (T : Target) (G : Policy) (lower : Nat → Nat) (hl : ∀ n, lower n ≤ n) (xs : List U8) (v : VecU8)
    (h1 : v.data.length ≤ v.cap) (h2 : 8 ≤ v.cap) :
    (∃ c, VecU8.extend T G lower v xs = .ok ⟨v.data ++ xs, c⟩) ∨
      VecU8.extend T G lower v xs = .error .capacity ∧ limit T < v.data.length + xs.length := by
  induction xs generalizing v with
  | nil => left; exact ⟨v.cap, by rw [VecU8.extend, List.append_nil]; rfl⟩
  | cons x xs ih =>
    rw [VecU8.extend]
    have key : ∀ c, v.data.length + 1 ≤ c → 8 ≤ c →
        (∃ c', VecU8.extend T G lower ⟨v.data ++ [x], c⟩ xs = .ok ⟨v.data ++ x :: xs, c'⟩) ∨
          VecU8.extend T G lower ⟨v.data ++ [x], c⟩ xs = .error .capacity ∧ limit T < v.data.length + (x :: xs).length := by
      intro c hc1 hc2
      have := ih ⟨v.data ++ [x], c⟩ (by simp; omega) hc2
      simp only [List.append_assoc, List.singleton_append, List.length_append, List.length_cons, List.length_nil] at this ⊢
      rcases this with h | ⟨h, h'⟩
      · exact .inl h
      · exact .inr ⟨h, by omega⟩
    by_cases hf : v.data.length = v.cap
    · rw [if_pos hf, VecU8.reserve, if_neg (by omega)]
      have g1 := G.enough v.cap (v.data.length + (lower xs.length + 1))
      have g2 := G.atMost v.cap (v.data.length + (lower xs.length + 1))
      have hlx := hl xs.length
      by_cases hm : G.grow v.cap (v.data.length + (lower xs.length + 1)) ≤ T.isizeMax
      · rw [T.reserve_ok (by omega)]
        exact key (G.grow v.cap (v.data.length + (lower xs.length + 1))) (by omega) (by omega)
      · right
        rw [Target.reserve, if_neg (by omega)]
        refine ⟨rfl, ?_⟩
        have := isizeMax_eq T
        rw [List.length_cons]
        omega
    · rw [if_neg hf]
      exact key v.cap (by omega) h2

theorem collect_spec (T : Target) (G : Policy) (lower : Nat → Nat) (hl : ∀ n, lower n ≤ n) (xs : List U8) :
    (∃ c, VecU8.collect T G lower xs = .ok ⟨xs, c⟩) ∨ VecU8.collect T G lower xs = .error .capacity ∧ limit T < xs.length := by
  cases xs with
  | nil => left; exact ⟨0, rfl⟩
  | cons x xs =>
    rw [VecU8.collect]
    have h1 := isizeMax_eq T
    have h2 := limit_large T
    have h3 := hl xs.length
    by_cases hm : max 8 (lower xs.length + 1) ≤ T.isizeMax
    · rw [T.reserve_ok (by omega), ok_bind]
      rcases extend_spec T G lower hl xs ⟨[x], max 8 (lower xs.length + 1)⟩ (by simp; omega) (by simp; omega) with h | ⟨h, h'⟩
      · exact .inl h
      · right
        refine ⟨h, ?_⟩
        simp only [List.length_cons, List.length_nil] at h' ⊢
        omega
    · right
      rw [Target.reserve, if_neg (by omega)]
      refine ⟨rfl, ?_⟩
      rw [List.length_cons]
      omega

theorem extend_std (T : Target) (xs : List U8) (v w : VecU8) (h1 : v.data.length ≤ v.cap) (k : Nat) (h2 : v.cap = 2 ^ (6 + k))
    (h3 : (v.data.length + xs.length) % 64 = 0) (hm : v.cap ≤ T.isizeMax) (h : VecU8.extend T std restOfBlock v xs = .ok w) :
    ∃ k, w.cap = 2 ^ (6 + k) ∧ w.cap ≤ T.isizeMax ∧ v.data.length + xs.length ≤ w.cap := by
  induction xs generalizing v k with
  | nil => cases h; exact ⟨k, h2, hm, by simpa using h1⟩
  | cons x xs ih =>
    rw [VecU8.extend] at h
    rw [List.length_cons] at h3 ⊢
    by_cases hf : v.data.length = v.cap
    · rw [if_pos hf, VecU8.reserve, if_neg (by omega)] at h
      have h64 : v.cap = 64 * 2 ^ k := by rw [h2, Nat.pow_add]
      have hk : 1 ≤ 2 ^ k := Nat.two_pow_pos k
      have hg : std.grow v.cap (v.data.length + (restOfBlock xs.length + 1)) = 2 * v.cap := by
        simp only [std, restOfBlock]
        omega
      rw [hg] at h
      by_cases hm2 : 2 * v.cap ≤ T.isizeMax
      · rw [T.reserve_ok (by omega)] at h
        obtain ⟨k', i1, i2, i3⟩ := ih ⟨v.data ++ [x], 2 * v.cap⟩ (by simp; omega) (k + 1)
          (by show 2 * v.cap = _; rw [h2, Nat.mul_comm, ← Nat.pow_succ]; rfl) (by simp; omega) hm2 h
        refine ⟨k', i1, i2, ?_⟩
        simp only [List.length_append, List.length_cons, List.length_nil] at i3
        omega
      · rw [Target.reserve, if_neg (by omega)] at h
        cases h
    · rw [if_neg hf] at h
      obtain ⟨k', i1, i2, i3⟩ := ih ⟨v.data ++ [x], v.cap⟩ (by simp; omega) k h2 (by simp; omega) hm h
      refine ⟨k', i1, i2, ?_⟩
      simp only [List.length_append, List.length_cons, List.length_nil] at i3
      omega

theorem collect_std (T : Target) (xs : List U8) (h64 : xs.length % 64 = 0) (h : limit T < xs.length) :
    VecU8.collect T std restOfBlock xs = .error .capacity := by
  rcases collect_spec T std restOfBlock (fun n => Nat.mod_le _ _) xs with ⟨c, hc⟩ | ⟨hc, _⟩
  · exfalso
    cases xs with
    | nil => rw [List.length_nil] at h; omega
    | cons x xs =>
      rw [VecU8.collect] at hc
      rw [List.length_cons] at h64 h
      have hm : max 8 (restOfBlock xs.length + 1) = 64 := by rw [restOfBlock]; omega
      have h1 := isizeMax_eq T
      have h2 := limit_large T
      rw [hm, T.reserve_ok (by omega), ok_bind] at hc
      obtain ⟨k, i1, i2, i3⟩ := extend_std T xs ⟨[x], 64⟩ _ (by simp) 0 rfl (by simp only [List.length_cons, List.length_nil]; omega) (by show 64 ≤ _; omega) hc
      have hg : Good T ⟨[], c⟩ := ⟨by simp, by
        show 32 ≤ c
        have : c = 64 * 2 ^ k := (show c = 2 ^ (6 + k) from i1).trans (Nat.pow_add 2 6 k)
        have := Nat.two_pow_pos k
        omega, i2⟩
      have : c ≤ limit T := pow_limit T ⟨[], c⟩ hg ⟨_, i1⟩
      simp only [List.length_cons, List.length_nil] at i3
      omega
  · exact hc

/-- The same outcome, or a panic over a capacity. -/
def Same {α : Type} (x y : M α) : Prop := x = y ∨ x = .error .capacity

theorem Same.bind {α β : Type} (x : M α) (f g : α → M β) (h : ∀ a, Same (f a) (g a)) : Same (x >>= f) (x >>= g) := by
  cases x with
  | error e => exact .inl rfl
  | ok a => exact h a

theorem Same.ite {α : Type} (c : Prop) [Decidable c] (x y z : M α) (h : Same y z) : Same (if c then x else y) (if c then x else z) := by
  split
  · exact .inl rfl
  · exact h

/-- `derive` is the same, or panics over the capacity. -/
theorem derive_only (T : Target) (G : Policy) (lower : Nat → Nat) (hl : ∀ n, lower n ≤ n) (s : Scrypt.Scrypt) (P S out : List U8) :
    Growing.derive T G lower s P S out = s.derive T P S out ∨ Growing.derive T G lower s P S out = .error .capacity := by
  show Same _ _
  unfold Growing.derive Scrypt.Scrypt.derive
  refine .ite _ _ _ _ (.ite _ _ _ _ (.bind _ _ _ fun m => .ite _ _ _ _ (.ite _ _ _ _ (.bind _ _ _ fun a => .bind _ _ _ fun b =>
    .bind _ _ _ fun size => .bind _ _ _ fun _ => .bind _ _ _ fun raw => .bind _ _ _ fun cs => .bind _ _ _ fun ch => .bind _ _ _ fun bs =>
    .bind _ _ _ fun ms => ?_))))
  rcases collect_spec T G lower hl ms.flatten.flatten with ⟨c, h⟩ | ⟨h, _⟩
  · left; rw [h]; rfl
  · right; rw [h]; rfl

theorem mapM_shape (T : Target) (s : Scrypt.Scrypt) (hr : 1 ≤ s.r) (hn : 1 ≤ s.n) (hcap : 2 * s.r * T.vecSize ≤ T.isizeMax)
    (bs ms : List (List Block)) (hb : ∀ x ∈ bs, Shape s.r x) (h : bs.mapM (fun elem => s.ro_mix T elem) = .ok ms) :
    ms.flatten.flatten.length = bs.length * (128 * s.r) := by
  induction bs generalizing ms with
  | nil => cases h; simp
  | cons b bs ih =>
    rw [List.mapM_cons] at h
    cases h1 : s.ro_mix T b with
    | error e => rw [h1] at h; cases h
    | ok m =>
    rw [h1, ok_bind] at h
    cases h2 : bs.mapM (fun elem => s.ro_mix T elem) with
    | error e => rw [h2] at h; cases h
    | ok ms' =>
    rw [h2, ok_bind] at h
    cases h
    have hsh : Shape s.r m := by
      by_cases htab : s.n * T.vecSize ≤ T.isizeMax
      · obtain ⟨b', e1, e2, _⟩ := ro_mix_ok T s b hr hn (hb b (by simp)) hcap htab
        rw [h1] at e1; cases e1; exact e2
      · rw [Scrypt.ro_mix, Target.reserve, if_neg htab] at h1
        cases h1
    rw [List.flatten_cons, List.flatten_append, List.length_append, ih ms' (fun x hx => hb x (by simp [hx])) h2,
      flatten_length _ hsh.2, hsh.1, List.length_cons, Nat.add_mul]
    omega

/-- What is collected has the size of the lanes; so the outcome depends on `128 * r * p` only. -/
theorem derive_len (T : Target) (G : Policy) (lower : Nat → Nat) (s : Scrypt.Scrypt) (P S out : List U8)
    (hr : 1 ≤ s.r) (hn : ∃ k, s.n = 2 ^ k) (hp : 1 ≤ s.p) (hmem : s.p * 128 * s.r ≤ T.isizeMax) :
    ((∃ e, s.derive T P S out = .error e) ∧ Growing.derive T G lower s P S out = s.derive T P S out) ∨
    ∃ salt : List U8, salt.length = s.p * 128 * s.r ∧
      (s.derive T P S out = do
        let out ← Pbkdf2.pbkdf2_sha256 T P salt PBKDF2_ROUNDS out
        return (out, .ok ())) ∧
      (Growing.derive T G lower s P S out = do
        let b_salt ← VecU8.collect T G lower salt
        let out ← Pbkdf2.pbkdf2_sha256 T P b_salt.data PBKDF2_ROUNDS out
        return (out, .ok ())) := by
  have hn1 : 1 ≤ s.n := by obtain ⟨k, h⟩ := hn; rw [h]; exact Nat.two_pow_pos k
  have hlt : s.p * 128 * s.r < 2 ^ T.bits := Nat.lt_of_le_of_lt hmem (isizeMax_lt T)
  have hcs := Verif.Props.Scrypt.chunk_lt T s.p s.r hp hlt
  have hq : s.p * 128 * s.r / (128 * s.r) = s.p := by rw [Nat.mul_assoc, Nat.mul_div_cancel _ (by omega)]
  have hcap : 2 * s.r * T.vecSize ≤ T.isizeMax := by
    have h1 : 128 * s.r ≤ s.p * 128 * s.r := by
      rw [Nat.mul_assoc]; exact Nat.le_mul_of_pos_left _ (by omega)
    have h2 : 2 * s.r * T.vecSize ≤ 2 * s.r * 24 := Nat.mul_le_mul_left _ (vecSize_le T)
    omega
  unfold Growing.derive Scrypt.Scrypt.derive
  rw [if_neg (by omega), if_neg (by omega), T.sub_ok hn1, ok_bind,
    if_neg (by rw [Decidable.not_not]; exact (n_pow _ hn1).mpr hn), if_neg (by omega),
    if_neg (by omega), if_neg (by omega), ok_bind,
    if_neg (by rw [Decidable.not_not]; exact (n_pow _ hn1).mpr hn), if_neg (by omega)]
  have he := size_ok T s.p s.r hr (.inr hlt)
  rw [Nat.mod_eq_of_lt hlt] at he
  simp only [← bind_assoc] at he ⊢
  rw [he, ok_bind, T.reserve_ok (by omega), ok_bind]
  cases h1 : Pbkdf2.pbkdf2_sha256 T P S PBKDF2_ROUNDS (List.replicate (s.p * 128 * s.r) (0 : U8)) with
  | error e => exact .inl ⟨⟨e, rfl⟩, rfl⟩
  | ok raw =>
  have hraw : raw.length = s.p * 128 * s.r := by
    rw [Verif.Counted.pbkdf2_length T P S _ _ _ h1, List.length_replicate]
  rw [ok_bind, T.mul_ok (show 2 * Scrypt.BLOCK_SIZE * s.r < _ from hcs), ok_bind,
    show 2 * Scrypt.BLOCK_SIZE * s.r = 128 * s.r from rfl, chunksExact_ok _ _ (by omega), ok_bind, hraw, hq,
    mapM_ok _ _ (fun chunk => (List.range (chunk.length / 64)).map fun i => (chunk.drop (64 * i)).take 64)
      (fun x _ => chunksExact_ok x 64 (by decide)), ok_bind]
  generalize hbs : ((List.range s.p).map fun i => (raw.drop (128 * s.r * i)).take (128 * s.r)).map
    (fun chunk => (List.range (chunk.length / 64)).map fun i => (chunk.drop (64 * i)).take 64) = bs
  have hsh : ∀ x ∈ bs, Shape s.r x := by
    intro x hx
    rw [← hbs, List.mem_map] at hx
    obtain ⟨c, hc, rfl⟩ := hx
    rw [List.mem_map] at hc
    obtain ⟨i, hi, rfl⟩ := hc
    rw [List.mem_range] at hi
    apply blocks_shape
    rw [List.length_take, List.length_drop, hraw]
    have : 128 * s.r * i + 128 * s.r ≤ s.p * 128 * s.r := by
      calc 128 * s.r * i + 128 * s.r = 128 * s.r * (i + 1) := by rw [Nat.mul_succ]
        _ ≤ 128 * s.r * s.p := Nat.mul_le_mul_left _ hi
        _ = s.p * 128 * s.r := by rw [Nat.mul_comm (128 * s.r) s.p, Nat.mul_assoc]
    omega
  have hbl : bs.length = s.p := by rw [← hbs]; simp
  cases h2 : bs.mapM (fun elem => s.ro_mix T elem) with
  | error e => exact .inl ⟨⟨e, rfl⟩, rfl⟩
  | ok ms =>
  right
  refine ⟨ms.flatten.flatten, ?_, ?_, ?_⟩
  · rw [mapM_shape T s hr hn1 hcap bs ms hsh h2, hbl, Nat.mul_assoc]
  · rw [ok_bind]
  · rw [ok_bind]

end Verif.Growing
