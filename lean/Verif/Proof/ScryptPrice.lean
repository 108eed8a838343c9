import Verif.Proof.ScryptLanes

/-!
With random functions in the place of HMAC and of the Salsa20/8 core, keys derived by scrypt look random to an attacker that does not itself make
all the evaluations of the core, for a user and the password of this user.
-/

namespace Spec.ScryptPrice
open Spec Spec.Games
open Spec.KeyGames (count beBytes4_inj beBytes_length draw_take)
open Spec.GuessGames (guessed)
open Spec.ScryptGames (Params)
open Spec.Scrypt (block)

attribute [local irreducible] avg
set_option linter.constructorNameAsVariable false

variable {β γ : Type}

/-- What holds for the result and the evaluations, whatever the values are. -/
def All (P : β → List Question → Prop) : Algorithm β → Prop
  | .result b => P b []
  | .eval q next => ∀ y, All (fun b l => P b (q :: l)) (next y)

theorem All.mono {P P' : β → List Question → Prop} {a : Algorithm β} (h : ∀ b l, P b l → P' b l) (ha : All P a) : All P' a := by
  induction a generalizing P P' with
  | result b => exact h _ _ ha
  | eval q next ih => exact fun y => ih y (fun b l hp => h _ _ hp) (ha y)

theorem All.bind {P : γ → List Question → Prop} {a : Algorithm β} {k : β → Algorithm γ}
    (h : All (fun b l => All (fun c l' => P c (l ++ l')) (k b)) a) : All P (a.bind k) := by
  induction a generalizing P with
  | result b => exact h
  | eval q next ih => exact fun y => ih y (h y)

theorem Reach.all {t t' : Table} {a : Algorithm β} {p : β × List Question} (h : Reach t a.logged p t') {P : β → List Question → Prop} (ha : All P a) :
    P p.1 p.2 := by
  induction a generalizing t p P with
  | result b =>
    cases h
    exact ha
  | eval q next ih =>
    rw [Algorithm.logged] at h
    cases h with
    | known y e h =>
      obtain ⟨p', t₁, h1, h2⟩ := h.bind
      cases h2
      exact ih y h1 (ha y)
    | fresh y e h =>
      obtain ⟨p', t₁, h1, h2⟩ := h.bind
      cases h2
      exact ih y h1 (ha y)

/-- What one lane gives and evaluates: `r`, `m` and the messages for HMAC. -/
def Shape (w m : Nat) (H : List Byte → List Byte → Prop) (o : List Byte) (l : List Question) : Prop :=
  o.length = w ∧ (cores l).length = m ∧ ∀ key x, .hmac key x ∈ l → H key x

theorem all_lane (κ w m : Nat) (ℓ : Algorithm (List Byte)) (h : Lane κ w m ℓ) : All (Shape w m fun _ _ => False) ℓ := by
  induction m generalizing ℓ with
  | zero =>
    obtain ⟨out, rfl, hw⟩ := lane_zero h
    exact ⟨hw, rfl, by simp⟩
  | succ m ih =>
    obtain ⟨x, next, rfl, ⟨h1, -, -⟩, -⟩ := lane_first h
    intro y
    refine (ih _ (h1 y)).mono fun o l hs => ⟨hs.1, ?_, ?_⟩
    · rw [cores, List.length_cons, hs.2.1]
    · intro key x hx
      rw [List.mem_cons] at hx
      rcases hx with hx | hx
      · cases hx
      · exact hs.2.2 _ _ hx

/-- The messages for HMAC with numbers from `i` to `j`. -/
def Numbered (key salt : List Byte) (i j : Nat) (key' x : List Byte) : Prop :=
  key' = key ∧ ∃ n, i ≤ n ∧ n < j ∧ x = salt ++ beBytes 4 (n + 1)

theorem all_blocks (w m : Nat) (key salt : List Byte) (i l : Nat) (k : List Byte → Algorithm (List Byte))
    (hk : ∀ B, B.length = 32 * l → All (Shape w m fun _ _ => False) (k B)) :
    All (Shape w m (Numbered key salt i (i + l))) (blocks key salt i l k) := by
  induction l generalizing i k with
  | zero => exact (hk [] rfl).mono fun o l hs => ⟨hs.1, hs.2.1, fun key x hx => (hs.2.2 _ _ hx).elim⟩
  | succ l ih =>
    intro y
    refine (ih (i + 1) _ fun B hB => hk _ ?_).mono fun o l hs => ⟨hs.1, hs.2.1, ?_⟩
    · rw [List.length_append, hB]
      have : y.toList.length = 32 := y.toList_length
      omega
    · intro key' x hx
      rw [List.mem_cons] at hx
      rcases hx with hx | hx
      · cases hx
        exact ⟨rfl, i, le_rfl, by omega, rfl⟩
      · obtain ⟨h1, n, h2, h3, h4⟩ := hs.2.2 _ _ hx
        exact ⟨h1, n, by omega, by omega, h4⟩

/-- Parameters that are at least one. -/
def Params.Positive (P : Params) : Prop := 1 ≤ P.r ∧ 1 ≤ P.N

theorem all_of_lane (P : Params) (hP : Params.Positive P) (key salt : List Byte) (i : Nat) :
    All (Shape (128 * P.r) (4 * P.r * P.N) (Numbered key salt (4 * P.r * i) (4 * P.r * (i + 1)))) (lane P key salt i) := by
  rw [show 4 * P.r * (i + 1) = 4 * P.r * i + 4 * P.r by ring]
  refine all_blocks _ _ _ _ _ _ _ fun B hB => all_lane P.N _ _ _ (lane_roMix P.r P.N hP.1 hP.2 B ?_)
  rw [hB]
  ring

theorem all_of_lanes (P : Params) (hP : Params.Positive P) (key salt : List Byte) (i l : Nat) :
    All (Shape (l * (128 * P.r)) (l * (4 * P.r * P.N)) (Numbered key salt (4 * P.r * i) (4 * P.r * (i + l)))) (lanes P key salt i l) := by
  induction l generalizing i with
  | zero => exact ⟨by simp, by simp [cores], by simp⟩
  | succ l ih =>
    refine All.bind ((all_of_lane P hP key salt i).mono fun X l1 h1 => All.bind ((ih (i + 1)).mono fun rest l2 h2 => ?_))
    refine ⟨?_, ?_, ?_⟩
    · rw [List.length_append, h1.1, h2.1]
      ring
    · rw [List.append_nil, cores_append, List.length_append, h1.2.1, h2.2.1]
      ring
    · intro key' x hx
      rw [List.append_nil, List.mem_append] at hx
      rcases hx with hx | hx
      · obtain ⟨e, n, a, b, c⟩ := h1.2.2 _ _ hx
        refine ⟨e, n, a, lt_of_lt_of_le b (Nat.mul_le_mul_left _ (by omega)), c⟩
      · obtain ⟨e, n, a, b, c⟩ := h2.2.2 _ _ hx
        refine ⟨e, n, le_trans (Nat.mul_le_mul_left _ (by omega)) a, ?_, c⟩
        rwa [show i + (l + 1) = i + 1 + l by omega]

/-! ### New evaluations -/

theorem CoreIn.hmac {t : Table} {D : List (List Byte)} (h : CoreIn t D) (key x : List Byte) (y : List.Vector Byte 32) :
    CoreIn (Function.update t (.hmac key x) (some y)) D := by
  intro z hz
  rw [Function.update_of_ne (by simp)] at hz
  exact h z hz

theorem blocks_le (D : List (List Byte)) (key salt : List Byte) (G : List Byte × List Question → ℚ)
    (hG : ∀ o l key x, G (o, .hmac key x :: l) = G (o, l)) (c : ℚ) (i l : Nat) (k : List Byte → Algorithm (List Byte))
    (h : ∀ B t', B.length = 32 * l → CoreIn t' D → ex (fun p _ => G p) t' (k B).logged ≤ c) (t : Table) (ht : CoreIn t D) :
    ex (fun p _ => G p) t (blocks key salt i l k).logged ≤ c := by
  induction l generalizing i k t with
  | zero => exact h [] t rfl ht
  | succ l ih =>
    have step (y : List.Vector Byte 32) (t' : Table) (ht' : CoreIn t' D) :
        ex (fun p _ => G (p.1, .hmac key (salt ++ beBytes 4 (i + 1)) :: p.2)) t' (blocks key salt (i + 1) l fun rest => k (y.toList ++ rest)).logged ≤ c := by
      simp only [hG]
      refine ih _ _ (fun B t'' hB => h _ t'' ?_) t' ht'
      rw [List.length_append, hB, y.toList_length]
      omega
    rw [blocks]
    cases e : t (.hmac key (salt ++ beBytes 4 (i + 1))) with
    | some y =>
      rw [ex_logged_some e]
      exact step y t ht
    | none =>
      rw [ex_logged_none e]
      exact (avg_mono fun y => step y _ (ht.hmac _ _ y)).trans_eq (avg_const c)

theorem number_ne (salt : List Byte) {i j : Nat} (hi : i + 1 < 2 ^ 32) (hj : j + 1 < 2 ^ 32) (h : i ≠ j) (key : List Byte) :
    Question.hmac key (salt ++ beBytes 4 (i + 1)) ≠ .hmac key (salt ++ beBytes 4 (j + 1)) := by
  intro e
  injection e with _ e
  have := beBytes4_inj hi hj (List.append_cancel_left e)
  omega

theorem blocks_two (D : List (List Byte)) (key salt : List Byte) (G : List Byte × List Question → ℚ)
    (hG : ∀ o l key x, G (o, .hmac key x :: l) = G (o, l)) (c : ℚ) (i l : Nat) (hi : i + l + 2 < 2 ^ 32) (pre : List Byte) (hpre : 64 ≤ pre.length + 32 * l)
    (k : List Byte → Algorithm (List Byte))
    (h : ∀ B t', B.length = 32 * (l + 2) → CoreIn t' D → ex (fun p _ => G p) t' (k B).logged ≤
      ind (∃ z ∈ D, some (xorBytes ((pre ++ B).drop (pre.length + 32 * l)) ((pre ++ B).take 64)) = some z) + c)
    (t : Table) (ht : CoreIn t D) (hn : ∀ n, i ≤ n → n < i + l + 2 → t (.hmac key (salt ++ beBytes 4 (n + 1))) = none) :
    ex (fun p _ => G p) t (blocks key salt i (l + 2) k).logged ≤ D.length * ε + c := by
  induction l generalizing i k t pre with
  | zero =>
    rw [blocks, ex_logged_none (hn i le_rfl (by omega))]
    have hn1 (y : List.Vector Byte 32) : Function.update t (.hmac key (salt ++ beBytes 4 (i + 1))) (some y) (.hmac key (salt ++ beBytes 4 (i + 1 + 1))) = none := by
      rw [Function.update_of_ne (number_ne salt (by omega) (by omega) (by omega) key), hn (i + 1) (by omega) (by omega)]
    simp only [blocks, hG]
    have step (y z : List.Vector Byte 32) (t' : Table) (ht' : CoreIn t' D) :
        ex (fun p _ => G p) t' (k (y.toList ++ (z.toList ++ []))).logged ≤
          ind (∃ d ∈ D, some (xorBytes (y.toList ++ z.toList) (pre.take 64)) = some d) + c := by
      refine (h _ t' ?_ ht').trans_eq ?_
      · simp
      · rw [List.append_nil, Nat.mul_zero, Nat.add_zero, List.drop_left, List.take_append_of_le_length (by omega)]
    have step2 (y : List.Vector Byte 32) :
        ex (fun p _ => G p) (Function.update t (.hmac key (salt ++ beBytes 4 (i + 1))) (some y))
          (Algorithm.eval (.hmac key (salt ++ beBytes 4 (i + 1 + 1))) fun z => k (y.toList ++ (z.toList ++ []))).logged ≤
        avg fun z : List.Vector Byte 32 => ind (∃ d ∈ D, some (xorBytes (y.toList ++ z.toList) (pre.take 64)) = some d) + c := by
      rw [ex_logged_none (hn1 y)]
      simp only [hG]
      exact avg_mono fun z => step y z _ ((ht.hmac _ _ y).hmac _ _ z)
    refine (avg_mono step2).trans ?_
    have e := avg_vector_append 32 32 fun s => ind (∃ d ∈ D, some (xorBytes s (pre.take 64)) = some d) + c
    refine e.symm.trans_le ?_
    rw [avg_add, avg_const]
    have := avg_among (fun y => some (xorBytes y.toList (pre.take 64))) 1 (fun z => by
      rw [Finset.card_le_one]
      intro a ha b hb
      simp only [Finset.mem_filter, Finset.mem_univ, true_and, Option.some.injEq] at ha hb
      have hl : (pre.take 64).length = 64 := by rw [List.length_take]; omega
      exact List.Vector.toList_injective (xor_cancel _ _ _ (by rw [hl, a.toList_length]) (by rw [hl, b.toList_length]) (ha.trans hb.symm))) D
    simp only [Nat.cast_one, mul_one] at this
    exact add_le_add_left this _
  | succ l ih =>
    rw [blocks, ex_logged_none (hn i le_rfl (by omega))]
    simp only [hG]
    refine (avg_mono fun y => ?_).trans_eq (avg_const _)
    have hy : y.toList.length = 32 := y.toList_length
    refine ih (i + 1) (by omega) (pre ++ y.toList) (by rw [List.length_append, hy]; omega) _ (fun B t' hB ht' => ?_) _ (ht.hmac _ _ y) fun n h1 h2 => ?_
    · refine (h _ t' (by rw [List.length_append, hB, hy]; omega) ht').trans_eq ?_
      rw [List.append_assoc, List.length_append, hy, show pre.length + 32 * (l + 1) = pre.length + 32 + 32 * l by omega]
    · rw [Function.update_of_ne (number_ne salt (by omega) (by omega) (by omega) key), hn n (by omega) (by omega)]

theorem lane_good (P : Params) (hP : Params.Positive P) (key salt : List Byte) (i : Nat) (hi : 4 * P.r * (i + 1) < 2 ^ 32) (D T : List (List Byte))
    (t : Table) (ht : CoreIn t D) (hn : ∀ n, 4 * P.r * i ≤ n → n < 4 * P.r * (i + 1) → t (.hmac key (salt ++ beBytes 4 (n + 1))) = none) :
    ex (fun p _ => ind (¬ Good D T p)) t (lane P key salt i).logged ≤
      ((4 * P.r * P.N + 1 : Nat) : ℚ) * P.N * (D.length + (4 * P.r * P.N : Nat) + T.length) * ε := by
  obtain ⟨hr, hN⟩ := hP
  have hm : 1 ≤ 4 * P.r * P.N := Nat.mul_pos (by omega) (by omega)
  obtain ⟨m, hm'⟩ : ∃ m, 4 * P.r * P.N = m + 1 := ⟨4 * P.r * P.N - 1, by omega⟩
  obtain ⟨l, hl⟩ : ∃ l, 4 * P.r = l + 2 := ⟨4 * P.r - 2, by omega⟩
  have e : 4 * P.r * (i + 1) = 4 * P.r * i + 4 * P.r := by ring
  rw [lane]
  have h := blocks_two D key salt (fun p => ind (¬ Good D T p)) (fun _ _ _ _ => rfl)
    (((m + 1 : Nat) : ℚ) * P.N * (D.length + (m + 1 : Nat) + T.length) * ε) (4 * P.r * i) l (by omega) [] (by simp; omega)
    (fun B => roMix P.r P.N B) (fun B t' hB ht' => ?_) t ht (fun n h1 h2 => hn n h1 (by omega))
  · rw [← hl] at h
    refine h.trans ?_
    rw [← add_mul]
    refine mul_le_mul_of_nonneg_right ?_ ε_nonneg
    have h1 : (1 : ℚ) ≤ P.N := by exact_mod_cast hN
    have h2 : (0 : ℚ) ≤ D.length := Nat.cast_nonneg _
    have h3 : (0 : ℚ) ≤ T.length := Nat.cast_nonneg _
    rw [hm']
    push_cast
    nlinarith
  · have hB' : B.length = 128 * P.r := by omega
    have hL := lane_roMix P.r P.N hr hN B hB'
    rw [hm'] at hL
    by_cases hz : ∃ z ∈ D, some (xorBytes (([] ++ B).drop (([] : List Byte).length + 32 * l)) (([] ++ B).take 64)) = some z
    · rw [ind_pos hz]
      refine (ex_le_const fun _ _ _ => ind_le_one _).trans (le_add_of_nonneg_right ?_)
      have := ε_nonneg
      positivity
    · rw [ind_neg hz, zero_add]
      refine fresh P.N (128 * P.r) hN T m _ hL D (fun x hx hxD => hz ⟨x, hxD, ?_⟩) t' ht'
      rw [first_roMix P.r P.N hr hN] at hx
      have e1 : (B.drop (32 * l)).take 64 = B.drop (32 * l) := List.take_of_length_le (by rw [List.length_drop]; omega)
      rw [← hx, List.nil_append, List.length_nil, Nat.zero_add, block, block, show 64 * (2 * P.r - 1) = 32 * l by omega, e1, Nat.mul_zero,
        List.drop_zero]

/-- No value of HMAC is known unless `H`. -/
def HmacIn (t : Table) (H : List Byte → List Byte → Prop) : Prop := ∀ key x, t (.hmac key x) ≠ none → H key x

theorem Reach.core {t t' : Table} {a : Algorithm β} {p : β × List Question} (h : Reach t a.logged p t') {D : List (List Byte)} (hD : CoreIn t D) :
    CoreIn t' (cores p.2 ++ D) := by
  intro x hx
  rw [List.mem_append]
  rcases h.log _ hx with h | h
  · exact .inr (hD x h)
  · exact .inl (mem_cores.2 h)

theorem tail_append (a b : List Byte) (h : 64 ≤ b.length) : tail (a ++ b) = tail b := by
  rw [tail, tail, List.length_append, List.drop_append, List.drop_eq_nil_of_le (by omega), List.nil_append]
  congr 1
  omega

theorem lanes_good (P : Params) (hP : Params.Positive P) (key salt : List Byte) (i l : Nat) (hi : 4 * P.r * (i + (l + 1)) < 2 ^ 32) (D T : List (List Byte))
    (t : Table) (ht : CoreIn t D) (hn : ∀ n, 4 * P.r * i ≤ n → n < 4 * P.r * (i + (l + 1)) → t (.hmac key (salt ++ beBytes 4 (n + 1))) = none) :
    ex (fun p _ => ind (¬ Good D T p)) t (lanes P key salt i (l + 1)).logged ≤
      ((l + 1 : Nat) : ℚ) * (4 * P.r * P.N + 1 : Nat) * P.N * (D.length + (l + 1 : Nat) * (4 * P.r * P.N : Nat) + T.length) * ε := by
  have hε := ε_nonneg
  induction l generalizing i D t with
  | zero =>
    rw [lanes, ex_logged_bind]
    refine (ex_mono fun p t' _ => ?_).trans ((lane_good P hP key salt i hi D T t ht hn).trans_eq ?_)
    · rw [lanes, Algorithm.bind]
      simp only [Algorithm.logged, ex, List.append_nil]
      exact le_rfl
    · push_cast
      ring
  | succ l ih =>
    have hle : 4 * P.r * (i + 1) ≤ 4 * P.r * (i + (l + 1 + 1)) := Nat.mul_le_mul_left _ (by omega)
    rw [lanes, ex_logged_bind]
    have step (p : List Byte × List Question) (t' : Table) (hr : Reach t (lane P key salt i).logged p t') :
        ex (fun p' _ => ind (¬ Good D T (p'.1, p.2 ++ p'.2))) t'
          ((lanes P key salt (i + 1) (l + 1)).bind fun rest => .result (p.1 ++ rest)).logged ≤
        ind (¬ Good D [] p) + ((l + 1 : Nat) : ℚ) * (4 * P.r * P.N + 1 : Nat) * P.N *
          (D.length + (4 * P.r * P.N : Nat) + (l + 1 : Nat) * (4 * P.r * P.N : Nat) + T.length) * ε := by
      have hs := hr.all (all_of_lane P hP key salt i)
      rw [ex_logged_bind]
      have hi' : 4 * P.r * (i + 1 + (l + 1)) < 2 ^ 32 := by rwa [show i + 1 + (l + 1) = i + (l + 1 + 1) by omega]
      have h1 := ih (i + 1) hi' (cores p.2 ++ D) t' (hr.core ht) fun n ha hb => by
        by_contra hc
        have hnn := hn n (le_trans (Nat.mul_le_mul_left _ (by omega)) ha) (by rwa [show i + 1 + (l + 1) = i + (l + 1 + 1) by omega] at hb)
        rcases hr.log _ hc with h | h
        · exact h hnn
        · obtain ⟨-, n', ha', hb', e⟩ := hs.2.2 _ _ h
          have := beBytes4_inj (by omega) (by omega) (List.append_cancel_left e)
          omega
      have h2 : ex (fun p' _ => ind (¬ Good D [] p) + ind (¬ Good (cores p.2 ++ D) T p')) t' (lanes P key salt (i + 1) (l + 1)).logged ≤
          ind (¬ Good D [] p) + ((l + 1 : Nat) : ℚ) * (4 * P.r * P.N + 1 : Nat) * P.N *
          (D.length + (4 * P.r * P.N : Nat) + (l + 1 : Nat) * (4 * P.r * P.N : Nat) + T.length) * ε := by
        rw [ex_add, ex_const]
        refine add_le_add_right (h1.trans_eq ?_) _
        rw [List.length_append, hs.2.1]
        push_cast
        ring
      refine le_trans (ex_mono fun p' t'' hr' => ?_) h2
      have hs' := hr'.all (all_of_lanes P hP key salt (i + 1) (l + 1))
      simp only [Algorithm.logged, ex, List.append_nil]
      refine le_trans (ind_mono fun hg => ?_) (ind_or _ _)
      by_contra hc
      rw [not_or, not_not, not_not] at hc
      obtain ⟨⟨a1, a2, -⟩, b1, b2, b3⟩ := hc
      refine hg ⟨?_, ?_, ?_⟩
      · rw [cores_append, List.nodup_append]
        refine ⟨a1, b1, fun x hx y hy e => b2 y hy (List.mem_append_left _ (e ▸ hx))⟩
      · intro x hx
        rw [cores_append, List.mem_append] at hx
        rcases hx with hx | hx
        · exact a2 x hx
        · exact fun hD => b2 x hx (List.mem_append_right _ hD)
      · rw [tail_append _ _ ?_]
        · exact b3
        · rw [hs'.1]
          have := hP.1
          nlinarith
    refine (ex_mono step).trans ?_
    rw [ex_add, ex_const]
    have h3 := lane_good P hP key salt i (lt_of_le_of_lt hle hi) D [] t ht fun n ha hb => hn n ha (lt_of_lt_of_le hb hle)
    refine (add_le_add_left h3 _).trans ?_
    rw [← add_mul]
    refine mul_le_mul_of_nonneg_right ?_ hε
    push_cast [List.length_nil]
    have c1 : (0 : ℚ) ≤ D.length := Nat.cast_nonneg _
    have c2 : (0 : ℚ) ≤ T.length := Nat.cast_nonneg _
    have c3 : (0 : ℚ) ≤ (4 * P.r * P.N + 1) * P.N := by positivity
    have c4 : (0 : ℚ) ≤ (l + 1) * (4 * P.r * P.N) + T.length := by positivity
    have := mul_nonneg c3 c4
    linarith

/-! ### The end is not known without the evaluations -/

theorem lane_known (P : Params) (hP : Params.Positive P) (key salt : List Byte) (i : Nat) (T K done : List (List Byte)) (t : Table)
    (ht : CoreIn t (K ++ done)) :
    ex (fun p _ => ind ((done ++ cores p.2).Nodup ∧ (∃ x ∈ cores p.2, x ∉ K) ∧ tail p.1 ∈ T)) t (lane P key salt i).logged ≤
      ((4 * P.r * P.N : Nat) : ℚ) * P.N * (K.length + done.length + (4 * P.r * P.N : Nat) + T.length) * ε := by
  refine blocks_le (K ++ done) key salt (fun p => ind ((done ++ cores p.2).Nodup ∧ (∃ x ∈ cores p.2, x ∉ K) ∧ tail p.1 ∈ T)) (fun _ _ _ _ => rfl) _ _ _ _
    (fun B t' hB ht' => walk P.N (128 * P.r) hP.2 T K _ _ (lane_roMix P.r P.N hP.1 hP.2 B ?_) done t' ht') t ht
  rw [hB]
  ring

theorem lanes_known (P : Params) (hP : Params.Positive P) (key salt : List Byte) (i l : Nat) (E K done : List (List Byte)) (t : Table)
    (ht : CoreIn t (K ++ done)) :
    ex (fun p _ => ind ((done ++ cores p.2).Nodup ∧ (∃ x ∈ cores p.2, x ∉ K) ∧ p.1 ∈ E)) t (lanes P key salt i l).logged ≤
      (l : ℚ) * (4 * P.r * P.N : Nat) * P.N * (K.length + done.length + l * (4 * P.r * P.N : Nat) + E.length) * ε := by
  have hε := ε_nonneg
  induction l generalizing i E done t with
  | zero =>
    refine (ind_neg ?_).le.trans ?_
    · simp [cores]
    · simp
  | succ l ih =>
    rw [lanes, ex_logged_bind]
    have step (p : List Byte × List Question) (t' : Table) (hr : Reach t (lane P key salt i).logged p t') :
        ex (fun p' _ => ind ((done ++ cores (p.2 ++ p'.2)).Nodup ∧ (∃ x ∈ cores (p.2 ++ p'.2), x ∉ K) ∧ p'.1 ∈ E)) t'
          ((lanes P key salt (i + 1) l).bind fun rest => .result (p.1 ++ rest)).logged ≤
        ind ((done ++ cores p.2).Nodup ∧ (∃ x ∈ cores p.2, x ∉ K) ∧ tail p.1 ∈ E.map fun o => tail (o.take (128 * P.r))) +
        (l : ℚ) * (4 * P.r * P.N : Nat) * P.N * (K.length + done.length + (l + 1 : Nat) * (4 * P.r * P.N : Nat) + E.length) * ε := by
      have hs := hr.all (all_of_lane P hP key salt i)
      have h1 := ih (i + 1) (E.map fun o => o.drop (128 * P.r)) (done ++ cores p.2) t' fun x hx => by
        have := hr.core ht x hx
        simp only [List.mem_append] at this ⊢
        tauto
      rw [ex_logged_bind]
      have h2 : ex (fun p' _ => ind ((done ++ cores p.2).Nodup ∧ (∃ x ∈ cores p.2, x ∉ K) ∧ tail p.1 ∈ E.map fun o => tail (o.take (128 * P.r))) +
          ind (((done ++ cores p.2) ++ cores p'.2).Nodup ∧ (∃ x ∈ cores p'.2, x ∉ K) ∧ p'.1 ∈ E.map fun o => o.drop (128 * P.r))) t'
            (lanes P key salt (i + 1) l).logged ≤ ind ((done ++ cores p.2).Nodup ∧ (∃ x ∈ cores p.2, x ∉ K) ∧ tail p.1 ∈ E.map fun o => tail (o.take (128 * P.r))) +
        (l : ℚ) * (4 * P.r * P.N : Nat) * P.N * (K.length + done.length + (l + 1 : Nat) * (4 * P.r * P.N : Nat) + E.length) * ε := by
        rw [ex_add, ex_const]
        refine add_le_add_right (h1.trans_eq ?_) _
        rw [List.length_append, hs.2.1, List.length_map]
        push_cast
        ring
      refine le_trans (ex_mono fun p' t'' hr' => ?_) h2
      simp only [Algorithm.logged, ex, List.append_nil]
      simp only [cores_append]
      refine le_trans (ind_mono ?_) (ind_or _ _)
      rintro ⟨a1, ⟨x, hx, hxK⟩, a3⟩
      rw [List.mem_append] at hx
      rcases hx with hx | hx
      · refine .inl ⟨?_, ⟨x, hx, hxK⟩, List.mem_map.2 ⟨_, a3, ?_⟩⟩
        · rw [← List.append_assoc] at a1
          exact (List.nodup_append.1 a1).1
        · rw [List.take_left' hs.1]
      · refine .inr ⟨?_, ⟨x, hx, hxK⟩, List.mem_map.2 ⟨_, a3, ?_⟩⟩
        · rwa [List.append_assoc]
        · rw [List.drop_left' hs.1]
    refine (ex_mono step).trans ?_
    rw [ex_add, ex_const]
    have h3 := lane_known P hP key salt i (E.map fun o => tail (o.take (128 * P.r))) K done t ht
    refine (add_le_add_left h3 _).trans ?_
    rw [← add_mul, List.length_map]
    refine mul_le_mul_of_nonneg_right ?_ hε
    push_cast
    have c3 : (0 : ℚ) ≤ (4 * P.r * P.N) * P.N := by positivity
    have c4 : (0 : ℚ) ≤ l * (4 * P.r * P.N) := by positivity
    have := mul_nonneg c3 c4
    linarith

/-! ### All that may be derived -/

/-- A key and a salt, and what `mix` makes of them, with its evaluations. -/
abbrev Entry := (List Byte × List Byte) × (List Byte × List Question)

/-- `mix` for several keys and salts. -/
def mixes (P : Params) : List (List Byte × List Byte) → Algorithm (List Entry)
  | [] => .result []
  | c :: cs => (mix P c.1 c.2).logged.bind fun e => (mixes P cs).bind fun es => .result ((c, e) :: es)

/-- All evaluations of the core are different, and the results end differently. -/
def GoodAll : (D T : List (List Byte)) → List Entry → Prop
  | _, _, [] => True
  | D, T, (_, e) :: es => Good D T e ∧ GoodAll (cores e.2 ++ D) (tail e.1 :: T) es

/-- The messages for HMAC that belong to the keys and salts. -/
def Belongs (cs : List (List Byte × List Byte)) (key x : List Byte) : Prop := ∃ c ∈ cs, c.1 = key ∧ ∃ n, x = c.2 ++ beBytes 4 n

theorem salt_inj {s s' : List Byte} {n n' : Nat} (h : s ++ beBytes 4 n = s' ++ beBytes 4 n') : s = s' :=
  (List.append_inj' h (by rw [beBytes_length, beBytes_length])).1

theorem mixes_good (P : Params) (hP : Params.Positive P) (hp : 1 ≤ P.p) (hb : 4 * P.r * P.p < 2 ^ 32) (cs : List (List Byte × List Byte)) (hc : cs.Nodup)
    (D T : List (List Byte)) (t : Table) (ht : CoreIn t D) (H : List Byte → List Byte → Prop) (hH : HmacIn t H)
    (hd : ∀ c ∈ cs, ∀ n, ¬ H c.1 (c.2 ++ beBytes 4 n)) :
    ex (fun R _ => ind (¬ GoodAll D T R)) t (mixes P cs) ≤
      (cs.length : ℚ) * P.p * (4 * P.r * P.N + 1 : Nat) * P.N * (D.length + cs.length * (P.p * (4 * P.r * P.N : Nat) + 1) + T.length) * ε := by
  have hε := ε_nonneg
  induction cs generalizing D T t H with
  | nil =>
    refine (ind_neg (by simp [GoodAll])).le.trans ?_
    simp
  | cons c cs ih =>
    obtain ⟨hc1, hc2⟩ := List.nodup_cons.1 hc
    obtain ⟨l, hl⟩ : ∃ l, P.p = l + 1 := ⟨P.p - 1, by omega⟩
    rw [mixes, ex_bind]
    have step (e : List Byte × List Question) (t' : Table) (hr : Reach t (mix P c.1 c.2).logged e t') :
        ex (fun R _ => ind (¬ GoodAll D T R)) t' ((mixes P cs).bind fun es => .result ((c, e) :: es)) ≤
        ind (¬ Good D T e) + (cs.length : ℚ) * P.p * (4 * P.r * P.N + 1 : Nat) * P.N *
          (D.length + (P.p * (4 * P.r * P.N : Nat) + 1) + cs.length * (P.p * (4 * P.r * P.N : Nat) + 1) + T.length) * ε := by
      have hs := hr.all (all_of_lanes P hP c.1 c.2 0 P.p)
      have h1 := ih hc2 (cores e.2 ++ D) (tail e.1 :: T) t' (hr.core ht) (fun key x => H key x ∨ Numbered c.1 c.2 (4 * P.r * 0) (4 * P.r * (0 + P.p)) key x)
        (fun key x hx => (hr.log _ hx).imp (hH key x) (hs.2.2 key x)) fun c' hc' n hh => by
          rcases hh with hh | ⟨e1, n', -, -, e2⟩
          · exact hd c' (List.mem_cons_of_mem _ hc') n hh
          · exact hc1 (Prod.ext e1 (salt_inj e2) ▸ hc')
      have h2 : ex (fun es _ => ind (¬ Good D T e) + ind (¬ GoodAll (cores e.2 ++ D) (tail e.1 :: T) es)) t' (mixes P cs) ≤
          ind (¬ Good D T e) + (cs.length : ℚ) * P.p * (4 * P.r * P.N + 1 : Nat) * P.N *
          (D.length + (P.p * (4 * P.r * P.N : Nat) + 1) + cs.length * (P.p * (4 * P.r * P.N : Nat) + 1) + T.length) * ε := by
        rw [ex_add, ex_const]
        refine add_le_add_right (h1.trans_eq ?_) _
        rw [List.length_append, hs.2.1, List.length_cons]
        push_cast
        ring
      rw [ex_bind]
      refine le_trans (ex_mono fun es t'' _ => ?_) h2
      refine le_trans (ind_mono fun hg => ?_) (ind_or _ _)
      by_contra hc
      rw [not_or, not_not, not_not] at hc
      exact hg hc
    refine (ex_mono step).trans ?_
    rw [ex_add, ex_const]
    have h3 := lanes_good P hP c.1 c.2 0 l (by rw [Nat.zero_add, ← hl]; exact hb) D T t ht fun n _ _ => by
      by_contra h
      exact hd c List.mem_cons_self (n + 1) (hH _ _ h)
    rw [← hl] at h3
    refine (add_le_add_left h3 _).trans ?_
    rw [← add_mul, List.length_cons]
    refine mul_le_mul_of_nonneg_right ?_ hε
    push_cast
    have c3 : (0 : ℚ) ≤ P.p * (4 * P.r * P.N + 1) * P.N := by positivity
    have c4 : (0 : ℚ) ≤ cs.length * (P.p * (4 * P.r * P.N) + 1) + 1 := by positivity
    have := mul_nonneg c3 c4
    linarith

/-- What is known after `mixes`. -/
structure Mixed (P : Params) (cs : List (List Byte × List Byte)) (R : List Entry) (t : Table) : Prop where
  fst : R.map (·.1) = cs
  replay : ∀ c e, (c, e) ∈ R → Replay t e (mix P c.1 c.2).logged
  size : ∀ c e, (c, e) ∈ R → e.1.length = P.p * (128 * P.r) ∧ (cores e.2).length = price P
  hmac : HmacIn t (Belongs cs)

theorem mixes_mixed (P : Params) (hP : Params.Positive P) (cs : List (List Byte × List Byte)) (t t' : Table) (H : List Byte → List Byte → Prop)
    (hH : HmacIn t H) (R : List Entry) (hr : Reach t (mixes P cs) R t') :
    R.map (·.1) = cs ∧ (∀ c e, (c, e) ∈ R → Replay t' e (mix P c.1 c.2).logged) ∧
      (∀ c e, (c, e) ∈ R → e.1.length = P.p * (128 * P.r) ∧ (cores e.2).length = price P) ∧ HmacIn t' fun key x => H key x ∨ Belongs cs key x := by
  induction cs generalizing t R H with
  | nil =>
    cases hr
    exact ⟨rfl, by simp, by simp, fun key x h => .inl (hH key x h)⟩
  | cons c cs ih =>
    rw [mixes] at hr
    obtain ⟨e, t₁, h1, h2⟩ := hr.bind
    obtain ⟨es, t₂, h3, h4⟩ := h2.bind
    cases h4
    have hs := h1.all (all_of_lanes P hP c.1 c.2 0 P.p)
    obtain ⟨i1, i2, i3, i4⟩ := ih t₁ (fun key x => H key x ∨ Numbered c.1 c.2 (4 * P.r * 0) (4 * P.r * (0 + P.p)) key x)
      (fun key x hx => (h1.log _ hx).imp (hH key x) (hs.2.2 key x)) es h3
    refine ⟨by rw [List.map_cons, i1], fun c' e' hm => ?_, fun c' e' hm => ?_, fun key x hx => ?_⟩
    · rcases List.mem_cons.1 hm with hm | hm
      · cases hm
        exact h1.replay.mono h3.extends
      · exact i2 _ _ hm
    · rcases List.mem_cons.1 hm with hm | hm
      · cases hm
        refine ⟨hs.1, hs.2.1.trans ?_⟩
        rw [price]
        ring
      · exact i3 _ _ hm
    · rcases i4 key x hx with (h | ⟨e1, n, -, -, e2⟩) | ⟨c', hc', h⟩
      · exact .inl h
      · exact .inr ⟨c, List.mem_cons_self, e1.symm, n + 1, e2⟩
      · exact .inr ⟨c', List.mem_cons_of_mem _ hc', h⟩

/-- Nothing is known. -/
def empty : Table := fun _ => none

theorem mixed (P : Params) (hP : Params.Positive P) (cs : List (List Byte × List Byte)) (t : Table) (R : List Entry) (hr : Reach empty (mixes P cs) R t) :
    Mixed P cs R t := by
  obtain ⟨h1, h2, h3, h4⟩ := mixes_mixed P hP cs empty t (fun _ _ => False) (fun _ _ h => h rfl) R hr
  exact ⟨h1, h2, h3, fun key x hx => (h4 key x hx).resolve_left id⟩

/-! ### The keys -/

theorem blocks_draw (f : β → ℚ) (key B : List Byte) (i l : Nat) (hi : i + l < 2 ^ 32) (k : List Byte → Algorithm β) (g d : List Byte → ℚ) (t : Table)
    (hn : ∀ n, i ≤ n → n < i + l → t (.hmac key (B ++ beBytes 4 (n + 1))) = none)
    (h : ∀ s t', (∀ q, (∀ n, q ≠ .hmac key (B ++ beBytes 4 (n + 1))) → t' q = t q) → |ex (fun b _ => f b) t' (k s) - g s| ≤ d s) :
    |ex (fun b _ => f b) t (blocks key B i l k) - KeyGames.draw l g| ≤ KeyGames.draw l d := by
  induction l generalizing i k g d t with
  | zero => exact h [] t fun q _ => rfl
  | succ l ih =>
    rw [blocks, ex_none (hn i le_rfl (by omega)), KeyGames.draw, KeyGames.draw]
    refine avg_close _ fun y => ih (i + 1) (by omega) _ _ _ _ (fun n h1 h2 => ?_) fun s t' ht' => h _ t' fun q hq => ?_
    · rw [Function.update_of_ne (number_ne B (by omega) (by omega) (by omega) key), hn n (by omega) (by omega)]
    · rw [ht' q hq, Function.update_of_ne (hq i)]

theorem finish_close (f : β → ℚ) (h0 : ∀ b, 0 ≤ f b) (h1 : ∀ b, f b ≤ 1) (ok : Question → Prop) (t : Table) (key : Nat → List Byte) (u : Nat) (rs : List Request)
    (Bs : List (List Byte)) (hlen : Bs.length = rs.length) (hBs : Bs.Nodup) (hl : ∀ r ∈ rs, count r.len < 2 ^ 32)
    (hok : ∀ j B, Bs[j]? = some B → ∀ n, ok (.hmac (key (u + j)) (B ++ beBytes 4 (n + 1)))) (t' : Table) (ht' : ∀ q, ¬ ok q → t' q = t q)
    (hn : ∀ j B, Bs[j]? = some B → ∀ n, t' (.hmac (key (u + j)) (B ++ beBytes 4 (n + 1))) = none) (k : List (List Byte) → Algorithm β) :
    |ex (fun b _ => f b) t' (finish key u rs Bs k) - uniform rs fun keys => ex (fun b _ => f b) t (k keys)| ≤
      uniform rs fun keys => ex (fun p _ => meets ok p.2) t (k keys).logged := by
  induction rs generalizing u Bs t' k with
  | nil =>
    rw [show finish key u [] Bs k = k [] by cases Bs <;> rfl]
    exact ex_until f h0 h1 ok t t' ht' _
  | cons r rs ih =>
    match Bs, hlen with
    | B :: Bs, hlen =>
      obtain ⟨hB, hBs'⟩ := List.nodup_cons.1 hBs
      rw [finish, uniform, uniform, ← draw_take r.len fun s => uniform rs fun keys => ex (fun b _ => f b) t (k (s :: keys)),
        ← draw_take r.len fun s => uniform rs fun keys => ex (fun p _ => meets ok p.2) t (k (s :: keys)).logged]
      have hk0 (n : Nat) := hok 0 B rfl n
      rw [Nat.add_zero] at hk0
      refine blocks_draw f (key u) B 0 (count r.len) (by rw [Nat.zero_add]; exact hl r List.mem_cons_self) _ _ _ t' (fun n _ _ => hn 0 B rfl n) fun s t'' ht'' => ?_
      refine ih (u + 1) Bs (by simpa using hlen) hBs' (fun r hr => hl r (List.mem_cons_of_mem _ hr)) (fun j B' hj n => ?_) t'' (fun q hq => ?_) (fun j B' hj n => ?_) _
      · rw [show u + 1 + j = u + (j + 1) by omega]
        exact hok (j + 1) B' hj n
      · rw [ht'' q fun n e => hq (e ▸ hk0 n), ht' q hq]
      · rw [ht'', show u + 1 + j = u + (j + 1) by omega]
        · exact hn (j + 1) B' hj n
        · intro n' e
          injection e with _ e
          exact hB (salt_inj e ▸ List.mem_of_getElem? hj)

theorem uniform_mono {rs : List Request} {f g : List (List Byte) → ℚ} (h : ∀ keys, f keys ≤ g keys) : uniform rs f ≤ uniform rs g := by
  induction rs generalizing f g with
  | nil => exact h _
  | cons r rs ih => exact avg_mono fun x => ih fun keys => h _

instance (n : Nat) : Nonempty (List.Vector Byte n) := ⟨List.Vector.replicate n 0⟩

theorem uniform_const (rs : List Request) (c : ℚ) : (uniform rs fun _ => c) = c := by
  induction rs with
  | nil => rfl
  | cons r rs ih => simp only [uniform, ih, avg_const]

theorem uniform_avg {α : Type} [Fintype α] (rs : List Request) (f : α → List (List Byte) → ℚ) :
    (avg fun x => uniform rs (f x)) = uniform rs fun keys => avg fun x => f x keys := by
  induction rs generalizing f with
  | nil => rfl
  | cons r rs ih =>
    simp only [uniform]
    rw [avg_comm]
    exact congrArg avg (funext fun x => ih _)

theorem ex_uniform (rs : List Request) (f : List (List Byte) → β → Table → ℚ) (t : Table) (a : Algorithm β) :
    ex (fun b t' => uniform rs fun keys => f keys b t') t a = uniform rs fun keys => ex (f keys) t a := by
  induction rs generalizing f with
  | nil => rfl
  | cons r rs ih =>
    simp only [uniform]
    rw [ex_avg]
    exact congrArg avg (funext fun x => ih fun keys => f (x.toList :: keys))

theorem fair_uniform (rs : List Request) (g : List (List Byte) → Table → ℚ) (hg : ∀ keys, Fair (g keys)) : Fair fun t => uniform rs fun keys => g keys t := by
  induction rs generalizing g with
  | nil => exact hg []
  | cons r rs ih =>
    intro t q hq
    simp only [uniform]
    rw [avg_comm]
    exact congrArg avg (funext fun x => ih (fun keys => g (x.toList :: keys)) (fun keys => hg _) t q hq)

theorem ex_sum {ι : Type} (s : Finset ι) (f : ι → β → Table → ℚ) (t : Table) (a : Algorithm β) :
    ex (fun b t' => ∑ j ∈ s, f j b t') t a = ∑ j ∈ s, ex (f j) t a := by
  classical
  induction s using Finset.induction_on with
  | empty => simp only [Finset.sum_empty, ex_const]
  | insert j s hj ih => simp only [Finset.sum_insert hj, ex_add, ih]

theorem ind_exists (n : Nat) (p : Nat → Prop) : ind (∃ u < n, p u) ≤ ∑ u ∈ Finset.range n, ind (p u) := by
  by_cases h : ∃ u < n, p u
  · obtain ⟨u, hu, hp⟩ := h
    rw [ind_pos ⟨u, hu, hp⟩, ← ind_pos hp]
    exact Finset.single_le_sum (f := fun u => ind (p u)) (fun _ _ => ind_nonneg _) (Finset.mem_range.2 hu)
  · rw [ind_neg h]
    exact Finset.sum_nonneg fun _ _ => ind_nonneg _

/-! ### What follows when all evaluations are different -/

theorem goodAll_facts (D T : List (List Byte)) (R : List Entry) (h : GoodAll D T R) :
    (R.flatMap fun e => cores e.2.2).Nodup ∧ (∀ x ∈ R.flatMap fun e => cores e.2.2, x ∉ D) ∧ (R.map fun e => tail e.2.1).Nodup ∧
      ∀ z ∈ R.map fun e => tail e.2.1, z ∉ T := by
  induction R generalizing D T with
  | nil => simp
  | cons e R ih =>
    obtain ⟨c, e⟩ := e
    obtain ⟨⟨g1, g2, g3⟩, h⟩ := h
    obtain ⟨i1, i2, i3, i4⟩ := ih _ _ h
    refine ⟨?_, ?_, ?_, ?_⟩
    · rw [List.flatMap_cons, List.nodup_append]
      exact ⟨g1, i1, fun x hx y hy e => i2 y hy (List.mem_append_left _ (e ▸ hx))⟩
    · intro x hx
      rw [List.flatMap_cons, List.mem_append] at hx
      rcases hx with hx | hx
      · exact g2 x hx
      · exact fun hD => i2 x hx (List.mem_append_right _ hD)
    · rw [List.map_cons, List.nodup_cons]
      exact ⟨fun hm => i4 _ hm List.mem_cons_self, i3⟩
    · intro z hz
      rw [List.map_cons, List.mem_cons] at hz
      rcases hz with rfl | hz
      · exact g3
      · exact fun hT => i4 z hz (List.mem_cons_of_mem _ hT)

theorem lookup_mem {R : List Entry} {c : List Byte × List Byte} (h : c ∈ R.map (·.1)) : ∃ e, R.lookup c = some e ∧ (c, e) ∈ R := by
  induction R with
  | nil => simp at h
  | cons e R ih =>
    obtain ⟨c', e⟩ := e
    rw [List.lookup_cons]
    by_cases hc : c = c'
    · subst hc
      exact ⟨e, by simp, List.mem_cons_self⟩
    · rw [List.map_cons, List.mem_cons] at h
      obtain ⟨e', h1, h2⟩ := ih (h.resolve_left hc)
      rw [show (c == c') = false by simpa using hc]
      exact ⟨e', h1, List.mem_cons_of_mem _ h2⟩

theorem entry_unique {R : List Entry} (hn : (R.map (·.1)).Nodup) {c : List Byte × List Byte} {e e' : List Byte × List Question} (h : (c, e) ∈ R)
    (h' : (c, e') ∈ R) : e = e' := by
  have := List.inj_on_of_nodup_map hn h h' rfl
  exact (Prod.ext_iff.1 this).2

/-- The messages for HMAC without the number at the end. -/
def messages : List Question → List (List Byte)
  | [] => []
  | .core _ :: l => messages l
  | .hmac _ x :: l => x.take (x.length - 4) :: messages l

theorem mem_messages {key x : List Byte} {n : Nat} {l : List Question} (h : .hmac key (x ++ beBytes 4 n) ∈ l) : x ∈ messages l := by
  induction l with
  | nil => cases h
  | cons q l ih =>
    rcases List.mem_cons.1 h with h' | h'
    · subst h'
      rw [messages, List.length_append, beBytes_length, Nat.add_sub_cancel, List.take_left]
      exact List.mem_cons_self
    · cases q with
      | core _ => exact ih h'
      | hmac _ _ => exact List.mem_cons_of_mem _ (ih h')

theorem all_within (h c : Nat) (a : Algorithm β) (ha : a.Within h c) : All (fun _ l => (cores l).length ≤ c ∧ (messages l).length ≤ h) a := by
  induction a generalizing h c with
  | result b => exact ⟨by simp [cores], by simp [messages]⟩
  | eval q next ih =>
    cases q with
    | core x =>
      obtain ⟨h1, h2⟩ := ha
      intro y
      refine (ih y _ _ (h2 y)).mono fun b l hl => ⟨?_, hl.2⟩
      have := hl.1
      simp only [cores, List.length_cons]
      omega
    | hmac key x =>
      obtain ⟨h1, h2⟩ := ha
      intro y
      refine (ih y _ _ (h2 y)).mono fun b l hl => ⟨hl.1, ?_⟩
      have := hl.2
      simp only [messages, List.length_cons]
      omega

/-! ### The search -/

section
variable {α : Type} [Fintype α]

/-- All keys and salts that there may be. -/
noncomputable def pairs (key : α → Nat → List Byte) (rs : List Request) : List (List Byte × List Byte) :=
  ((Finset.univ : Finset α).toList.flatMap fun x => rs.mapIdx fun u r => (key x u, r.salt)).dedup

theorem pairs_nodup (key : α → Nat → List Byte) (rs : List Request) : (pairs key rs).Nodup := List.nodup_dedup _

theorem mem_pairs (key : α → Nat → List Byte) {rs : List Request} (x : α) {u : Nat} {r : Request} (h : rs[u]? = some r) : (key x u, r.salt) ∈ pairs key rs := by
  rw [pairs, List.mem_dedup, List.mem_flatMap]
  refine ⟨x, by simp, ?_⟩
  rw [List.mem_iff_getElem?]
  exact ⟨u, by rw [List.getElem?_mapIdx, h]; rfl⟩

theorem of_pairs {key : α → Nat → List Byte} {rs : List Request} {c : List Byte × List Byte} (h : c ∈ pairs key rs) : c.2 ∈ rs.map (·.salt) := by
  rw [pairs, List.mem_dedup, List.mem_flatMap] at h
  obtain ⟨x, -, h⟩ := h
  rw [List.mem_iff_getElem?] at h
  obtain ⟨u, h⟩ := h
  rw [List.getElem?_mapIdx, Option.map_eq_some_iff] at h
  obtain ⟨r, hr, rfl⟩ := h
  exact List.mem_map.2 ⟨r, List.mem_of_getElem? hr, rfl⟩

theorem pairs_length (key : α → Nat → List Byte) (rs : List Request) : (pairs key rs).length ≤ Fintype.card α * rs.length := by
  refine (List.dedup_sublist _).length_le.trans ?_
  rw [List.length_flatMap]
  simp only [List.length_mapIdx, List.map_const', List.sum_replicate_nat, Finset.length_toList, Finset.card_univ]
  exact le_rfl

/-- What `mix` makes of the passwords and salts. -/
def outs (key : Nat → List Byte) (rs : List Request) (R : List Entry) : List (List Byte) :=
  rs.mapIdx fun u r => ((R.lookup (key u, r.salt)).getD ([], [])).1

/-- The evaluations that give the keys. -/
def last (key : Nat → List Byte) (rs : List Request) (R : List Entry) (q : Question) : Prop :=
  ∃ u B, (outs key rs R)[u]? = some B ∧ ∃ n, q = .hmac (key u) (B ++ beBytes 4 (n + 1))

theorem Replay.bind {t : Table} {b : β} {c : γ} {a : Algorithm β} {k : β → Algorithm γ} (h : Replay t b a) (h' : Replay t c (k b)) : Replay t c (a.bind k) := by
  induction a with
  | result b' =>
    cases h
    exact h'
  | eval q next ih =>
    obtain ⟨y, e, h⟩ := h
    exact ⟨y, e, ih y h⟩

theorem Replay.of_bind {t : Table} {c : γ} {a : Algorithm β} {k : β → Algorithm γ} (h : Replay t c (a.bind k)) : ∃ b, Replay t b a ∧ Replay t c (k b) := by
  induction a with
  | result b' => exact ⟨b', rfl, h⟩
  | eval q next ih =>
    obtain ⟨y, e, h⟩ := h
    obtain ⟨b, h1, h2⟩ := ih y h
    exact ⟨b, ⟨y, e, h1⟩, h2⟩

theorem Replay.of_logged {t : Table} {a : Algorithm β} {p : β × List Question} (h : Replay t p a.logged) : Replay t p.1 a := by
  induction a generalizing p with
  | result b =>
    cases h
    rfl
  | eval q next ih =>
    obtain ⟨y, e, h⟩ := h
    obtain ⟨p', h1, h2⟩ := h.of_bind
    cases h2
    exact ⟨y, e, ih y (p := p') h1⟩

theorem replay_mixAll (P : Params) (key : Nat → List Byte) (u : Nat) (rs : List Request) (t : Table) (B : Nat → Request → List Byte)
    (h : ∀ j r, rs[j]? = some r → Replay t (B (u + j) r) (mix P (key (u + j)) r.salt)) :
    Replay t (rs.mapIdx fun j r => B (u + j) r) (mixAll P key u rs) := by
  induction rs generalizing u with
  | nil => rfl
  | cons r rs ih =>
    rw [mixAll, List.mapIdx_cons]
    refine (h 0 r rfl).bind ((ih (u + 1) fun j r' hj => ?_).bind ?_)
    · have := h (j + 1) r' hj
      rwa [show u + (j + 1) = u + 1 + j by omega] at this
    · simp only [Replay, Nat.add_assoc, Nat.add_comm 1]

variable (P : Params) (hP : Params.Positive P) (key : α → Nat → List Byte) (rs : List Request)

omit [Fintype α] in
theorem mixed_entry {cs : List (List Byte × List Byte)} {R : List Entry} {t : Table} (hm : Mixed P cs R t) {c : List Byte × List Byte} (hc : c ∈ cs) :
    ∃ e, R.lookup c = some e ∧ (c, e) ∈ R ∧ Replay t e (mix P c.1 c.2).logged := by
  rw [← hm.fst] at hc
  obtain ⟨e, h1, h2⟩ := lookup_mem hc
  exact ⟨e, h1, h2, hm.replay _ _ h2⟩

theorem replay_all {R : List Entry} {t : Table} (hm : Mixed P (pairs key rs) R t) (x : α) : Replay t (outs (key x) rs R) (mixAll P (key x) 0 rs) := by
  have h := replay_mixAll P (key x) 0 rs t (fun u r => ((R.lookup (key x u, r.salt)).getD ([], [])).1) fun j r hj => by
    rw [Nat.zero_add]
    obtain ⟨e, h1, -, h3⟩ := mixed_entry P hm (mem_pairs key x hj)
    rw [h1]
    exact h3.of_logged
  simp only [Nat.zero_add] at h
  exact h

theorem outs_get {R : List Entry} {t : Table} (hm : Mixed P (pairs key rs) R t) (x : α) {u : Nat} {B : List Byte} (h : (outs (key x) rs R)[u]? = some B) :
    ∃ r l, rs[u]? = some r ∧ ((key x u, r.salt), (B, l)) ∈ R := by
  rw [outs, List.getElem?_mapIdx, Option.map_eq_some_iff] at h
  obtain ⟨r, hr, rfl⟩ := h
  obtain ⟨e, h1, h2, -⟩ := mixed_entry P hm (mem_pairs key x hr)
  refine ⟨r, e.2, hr, ?_⟩
  rw [h1]
  exact h2

/-- The forbidden ends: those of the salts. -/
def ends (rs : List Request) : List (List Byte) := rs.map fun r => tail r.salt

theorem salts_inj (hs : (rs.map (·.salt)).Nodup) {u u' : Nat} {r r' : Request} (h : rs[u]? = some r) (h' : rs[u']? = some r') (e : r.salt = r'.salt) : u = u' := by
  have a : (rs.map (·.salt))[u]? = some r.salt := by rw [List.getElem?_map, h]; rfl
  have b : (rs.map (·.salt))[u']? = some r.salt := by rw [List.getElem?_map, h', e]; rfl
  have hu : u < (rs.map (·.salt)).length := by
    by_contra hc
    rw [List.getElem?_eq_none (by omega)] at a
    cases a
  exact (List.getElem?_inj hu hs).1 (a.trans b.symm)

include hP in
theorem real_close (hs : (rs.map (·.salt)).Nodup) (hl : ∀ r ∈ rs, count r.len < 2 ^ 32) (x : α) (f : β → ℚ) (h0 : ∀ b, 0 ≤ f b) (h1 : ∀ b, f b ≤ 1)
    (a : List (List Byte) → Algorithm β) :
    |ex (fun b _ => f b) empty (derive P (key x) rs a) - uniform rs fun keys => ex (fun b _ => f b) empty (a keys)| ≤
      ex (fun R _ => ind (¬ GoodAll [] (ends rs) R)) empty (mixes P (pairs key rs)) +
        uniform rs fun keys => ex (fun R t => ex (fun p _ => ind (GoodAll [] (ends rs) R ∧ ∃ q ∈ p.2, last (key x) rs R q)) t (a keys).logged) empty
          (mixes P (pairs key rs)) := by
  have e1 : ex (fun b _ => f b) empty (derive P (key x) rs a) =
      ex (fun R t => ex (fun b _ => f b) t (finish (key x) 0 rs (outs (key x) rs R) a)) empty (mixes P (pairs key rs)) := by
    refine (ex_drop (fair_ex (fun b => fair_const _) _) empty (mixes P (pairs key rs))).symm.trans (ex_congr fun R t hr => ?_)
    rw [derive, ex_bind]
    exact (replay_all P key rs (mixed P hP _ _ _ hr) x).ex _
  have e2 : (uniform rs fun keys => ex (fun b _ => f b) empty (a keys)) =
      ex (fun _ t => uniform rs fun keys => ex (fun b _ => f b) t (a keys)) empty (mixes P (pairs key rs)) :=
    (ex_drop (fair_uniform rs (fun keys t => ex (fun b _ => f b) t (a keys)) fun keys => fair_ex (fun b => fair_const _) _) empty
      (mixes P (pairs key rs))).symm
  rw [e1, e2, ← ex_uniform, ← ex_add]
  refine ex_close fun R t hr => ?_
  have hm := mixed P hP _ _ _ hr
  by_cases hg : GoodAll [] (ends rs) R
  · rw [ind_neg (not_not.2 hg), zero_add]
    obtain ⟨-, -, g3, g4⟩ := goodAll_facts _ _ _ hg
    refine le_trans (finish_close f h0 h1 (last (key x) rs R) t (key x) 0 rs (outs (key x) rs R) (by simp [outs]) ?_ hl ?_ t (fun _ _ => rfl) ?_ a) ?_
    · rw [List.nodup_iff_getElem?_ne_getElem?]
      intro i j hij hj e
      obtain ⟨B, hB⟩ : ∃ B, (outs (key x) rs R)[j]? = some B := ⟨_, List.getElem?_eq_getElem hj⟩
      obtain ⟨r, l, hr1, hr2⟩ := outs_get P key rs hm x hB
      obtain ⟨r', l', hr1', hr2'⟩ := outs_get P key rs hm x (e.trans hB)
      have := List.inj_on_of_nodup_map g3 hr2 hr2' rfl
      have h3 := (Prod.ext_iff.1 (Prod.ext_iff.1 this).1).2
      have := salts_inj rs hs hr1 hr1' h3
      omega
    · intro j B hj n
      rw [Nat.zero_add]
      exact ⟨j, B, hj, n, rfl⟩
    · intro j B hj n
      by_contra hc
      obtain ⟨c, hc, -, n', e⟩ := hm.hmac _ _ hc
      obtain ⟨r, l, -, hr2⟩ := outs_get P key rs hm x hj
      have e' := salt_inj e
      have := of_pairs hc
      rw [List.mem_map] at this
      obtain ⟨r', hr', e''⟩ := this
      refine g4 (tail B) (List.mem_map.2 ⟨_, hr2, rfl⟩) (List.mem_map.2 ⟨r', hr', ?_⟩)
      rw [e'', e']
    · refine uniform_mono fun keys => ex_mono fun p t' _ => ind_mono fun h => ⟨hg, h⟩
  · rw [ind_pos hg]
    refine le_trans ?_ (le_add_of_nonneg_right ?_)
    · have hb (t : Table) (a : Algorithm β) : 0 ≤ ex (fun b _ => f b) t a ∧ ex (fun b _ => f b) t a ≤ 1 :=
        ⟨ex_nonneg fun b _ => h0 b, ex_le_const fun b _ _ => h1 b⟩
      refine abs_sub_le_one (hb _ _).1 (hb _ _).2 ?_ ?_
      · exact (uniform_const rs 0).symm.trans_le (uniform_mono fun keys => (hb _ _).1)
      · exact (uniform_mono fun keys => (hb _ _).2).trans_eq (uniform_const rs 1)
    · exact (uniform_const rs 0).symm.trans_le (uniform_mono fun keys => ex_nonneg fun _ _ => ind_nonneg _)

/-- The guesses: for which users and passwords all evaluations have been made. -/
noncomputable def guesses (rs : List Request) (R : List Entry) (K : List (List Byte)) : List (Nat × List Byte) :=
  open Classical in (R.filter fun e => ∀ z ∈ cores e.2.2, z ∈ K).map fun e => ((rs.map (·.salt)).idxOf e.1.2, e.1.1)

omit [Fintype α] in
theorem guesses_length {cs : List (List Byte × List Byte)} {R : List Entry} {t : Table} (hm : Mixed P cs R t) (hn : (R.flatMap fun e => cores e.2.2).Nodup)
    (K : List (List Byte)) : (guesses rs R K).length * price P ≤ K.length := by
  classical
  rw [guesses, List.length_map]
  have h1 : ∀ S : List Entry, S.Sublist R → (S.flatMap fun e => cores e.2.2).length = S.length * price P := by
    intro S hS
    rw [List.length_flatMap, List.map_congr_left (g := fun _ => price P), List.map_const', List.sum_replicate_nat]
    exact fun e he => (hm.size e.1 e.2 (hS.subset he)).2
  have hS := List.filter_sublist (l := R) (p := fun e => decide (∀ z ∈ cores e.2.2, z ∈ K))
  rw [← h1 _ hS]
  refine (List.Nodup.subperm (hn.sublist (hS.flatMap _)) fun z hz => ?_).length_le
  rw [List.mem_flatMap] at hz
  obtain ⟨e, he, hz⟩ := hz
  have hall : ∀ z ∈ cores e.2.2, z ∈ K := by simpa using (List.mem_filter.1 he).2
  exact hall z hz

include hP in
theorem search [Nonempty α] (hs : (rs.map (·.salt)).Nodup) (h c : Nat) (g : ℚ) (hg : ∀ L : List (Nat × List Byte), L.length * price P ≤ c → guessed key L ≤ g)
    (b : Algorithm β) (hb : b.Within h c) :
    (avg fun x => ex (fun R t => ex (fun p _ => ind (GoodAll [] (ends rs) R ∧ ∃ q ∈ p.2, last (key x) rs R q)) t b.logged) empty (mixes P (pairs key rs))) ≤
      g + rs.length * ((P.p : ℚ) * (4 * P.r * P.N : Nat) * P.N * (c + P.p * (4 * P.r * P.N : Nat) + h) * ε) := by
  have hε := ε_nonneg
  -- the evaluations that give a key are made, but not all those of the core
  let B (x : α) (u : Nat) (R : List Entry) (l : List Question) : Prop := ∃ r e, rs[u]? = some r ∧ ((key x u, r.salt), e) ∈ R ∧ (cores e.2).Nodup ∧
    (∃ z ∈ cores e.2, z ∉ cores l) ∧ e.1 ∈ messages l
  have hB (x : α) (u : Nat) (hu : u < rs.length) : ex (fun R t => ex (fun p _ => ind (B x u R p.2)) t b.logged) empty (mixes P (pairs key rs)) ≤
      (P.p : ℚ) * (4 * P.r * P.N : Nat) * P.N * (c + P.p * (4 * P.r * P.N : Nat) + h) * ε := by
    obtain ⟨r, hr⟩ : ∃ r, rs[u]? = some r := ⟨_, List.getElem?_eq_getElem hu⟩
    let B' (e : List Byte × List Question) (l : List Question) : Prop := (cores e.2).Nodup ∧ (∃ z ∈ cores e.2, z ∉ cores l) ∧ e.1 ∈ messages l
    have e1 : ex (fun R t => ex (fun p _ => ind (B x u R p.2)) t b.logged) empty (mixes P (pairs key rs)) =
        ex (fun _ t => ex (fun e t' => ex (fun p _ => ind (B' e p.2)) t' b.logged) t (mix P (key x u) r.salt).logged) empty (mixes P (pairs key rs)) := by
      refine ex_congr fun R t hR => ?_
      have hm := mixed P hP _ _ _ hR
      obtain ⟨e, -, h2, h3⟩ := mixed_entry P hm (mem_pairs key x hr)
      rw [h3.ex]
      refine ex_congr fun p _ _ => congrArg ind (propext ⟨?_, fun hh => ⟨r, e, hr, h2, hh⟩⟩)
      rintro ⟨r', e', hr', he', hh⟩
      rw [hr] at hr'
      cases hr'
      rwa [entry_unique (by rw [hm.fst]; exact pairs_nodup _ _) h2 he']
    rw [e1, ex_drop (g := fun t => ex (fun e t' => ex (fun p _ => ind (B' e p.2)) t' b.logged) t (mix P (key x u) r.salt).logged)
      (fair_ex (fun e => fair_ex (fun p => fair_const _) _) _), ex_swap (fun e (p : β × List Question) => ind (B' e p.2))]
    refine ex_le_const fun p t hp => ?_
    have hw := hp.all (all_within h c b hb)
    have hk := lanes_known P hP (key x u) r.salt 0 P.p (messages p.2) (cores p.2) [] t fun z hz => by
      have := hp.core (D := []) (fun _ h => (h rfl).elim) z hz
      exact this
    refine (le_trans (ex_mono fun e _ _ => ind_mono fun hh => ?_) hk).trans ?_
    · exact hh
    · refine mul_le_mul_of_nonneg_right (mul_le_mul_of_nonneg_left ?_ (by positivity)) hε
      have a1 : ((cores p.2).length : ℚ) ≤ c := by exact_mod_cast hw.1
      have a2 : ((messages p.2).length : ℚ) ≤ h := by exact_mod_cast hw.2
      simp only [List.length_nil, Nat.cast_zero]
      linarith
  have e1 : (avg fun x => ex (fun R t => ex (fun p _ => ind (GoodAll [] (ends rs) R ∧ ∃ q ∈ p.2, last (key x) rs R q)) t b.logged) empty
      (mixes P (pairs key rs))) ≤
      avg fun x => ex (fun R t => ex (fun p _ => ind (GoodAll [] (ends rs) R ∧ ∃ w ∈ guesses rs R (cores p.2), key x w.1 = w.2)) t b.logged) empty
        (mixes P (pairs key rs)) + ∑ u ∈ Finset.range rs.length, ex (fun R t => ex (fun p _ => ind (B x u R p.2)) t b.logged) empty (mixes P (pairs key rs)) := by
    refine avg_mono fun x => ?_
    rw [← ex_sum, ← ex_add]
    refine ex_mono fun R t hR => ?_
    have hm := mixed P hP _ _ _ hR
    rw [← ex_sum, ← ex_add]
    refine ex_mono fun p t' _ => ?_
    refine le_trans (ind_mono ?_) ((ind_or _ _).trans (add_le_add_right (ind_exists _ _) _))
    rintro ⟨hgood, q, hq, u, out, hu, n, rfl⟩
    obtain ⟨r, l, hr, hR⟩ := outs_get P key rs hm x hu
    have hul : u < rs.length := by
      by_contra hc
      rw [List.getElem?_eq_none (by omega)] at hr
      cases hr
    by_cases hall : ∀ z ∈ cores l, z ∈ cores p.2
    · refine .inl ⟨hgood, (u, key x u), ?_, rfl⟩
      rw [guesses, List.mem_map]
      refine ⟨_, List.mem_filter.2 ⟨hR, by simpa using hall⟩, ?_⟩
      refine Prod.ext ?_ rfl
      have hi : u < (rs.map (·.salt)).length := by simpa using hul
      have he : (rs.map (·.salt))[u] = r.salt := by
        rw [List.getElem_map]
        rw [List.getElem?_eq_getElem hul] at hr
        cases hr
        rfl
      change (rs.map (·.salt)).idxOf r.salt = u
      rw [← he, hs.idxOf_getElem u hi]
    · push Not at hall
      refine .inr ⟨u, hul, r, (out, l), hr, hR, ?_, hall, mem_messages hq⟩
      exact (List.nodup_flatMap.1 (goodAll_facts _ _ _ hgood).1).1 _ hR
  refine e1.trans ?_
  rw [avg_add]
  refine add_le_add ?_ ?_
  · rw [← ex_avg]
    refine ex_le_const fun R t hR => ?_
    have hm := mixed P hP _ _ _ hR
    rw [← ex_avg]
    refine ex_le_const fun p t' hp => ?_
    have hw := hp.all (all_within h c b hb)
    by_cases hgood : GoodAll [] (ends rs) R
    · refine le_trans (le_of_eq ?_) (hg (guesses rs R (cores p.2)) ((guesses_length P rs hm (goodAll_facts _ _ _ hgood).1 _).trans hw.1))
      rw [guessed]
      refine congrArg avg (funext fun x => ?_)
      by_cases hx : ∃ w ∈ guesses rs R (cores p.2), key x w.1 = w.2
      · rw [ind_pos ⟨hgood, hx⟩, if_pos hx]
      · rw [ind_neg fun h => hx h.2, if_neg hx]
    · refine le_trans (le_of_eq ?_) ((avg_nonneg fun x => by split_ifs <;> norm_num).trans (hg [] (by simp)))
      rw [show (fun x => ind (GoodAll [] (ends rs) R ∧ ∃ w ∈ guesses rs R (cores p.2), key x w.1 = w.2)) = fun _ => 0 from
        funext fun x => ind_neg fun h => hgood h.1, avg_zero]
  · refine (avg_mono fun x => Finset.sum_le_sum fun u hu => hB x u (Finset.mem_range.1 hu)).trans_eq ?_
    rw [avg_const, Finset.sum_const, Finset.card_range, nsmul_eq_mul]

include hP in
theorem close [Nonempty α] (hp : 1 ≤ P.p) (hb : 4 * P.r * P.p < 2 ^ 32) (hs : (rs.map (·.salt)).Nodup) (hl : ∀ r ∈ rs, count r.len < 2 ^ 32)
    (h c : Nat) (g : ℚ) (hg : ∀ L : List (Nat × List Byte), L.length * price P ≤ c → guessed key L ≤ g) (good : α → β → Bool)
    (a : List (List Byte) → Algorithm β) (ha : ∀ keys, (a keys).Within h c) (S : Nat) (hS : S = Fintype.card α * rs.length * (price P + P.p + 1)) :
    |(avg fun x => real P rs (key x) (good x) a) - avg fun x => ideal rs (good x) a| ≤ g + (P.N : ℚ) * S * (2 * S + h + c) / 2 ^ 512 := by
  have hε := ε_nonneg
  have hA : 1 ≤ Fintype.card α := Fintype.card_pos
  let G : ℚ := ex (fun R _ => ind (¬ GoodAll [] (ends rs) R)) empty (mixes P (pairs key rs))
  let E (x : α) (keys : List (List Byte)) : ℚ :=
    ex (fun R t => ex (fun p _ => ind (GoodAll [] (ends rs) R ∧ ∃ q ∈ p.2, last (key x) rs R q)) t (a keys).logged) empty (mixes P (pairs key rs))
  have h1 : |(avg fun x => real P rs (key x) (good x) a) - avg fun x => ideal rs (good x) a| ≤ avg fun x => G + uniform rs (E x) := by
    rw [avg_sub]
    refine (avg_abs _).trans (avg_mono fun x => ?_)
    simp only [real, ideal, random_eq]
    exact real_close P hP key rs hs hl x (fun b => if good x b then 1 else 0) (fun b => by split_ifs <;> norm_num)
      (fun b => by split_ifs <;> norm_num) a
  have h2 : (avg fun x => G + uniform rs (E x)) ≤
      G + (g + rs.length * ((P.p : ℚ) * (4 * P.r * P.N : Nat) * P.N * (c + P.p * (4 * P.r * P.N : Nat) + h) * ε)) := by
    rw [avg_add, avg_const, uniform_avg]
    refine add_le_add le_rfl ((uniform_mono fun keys => ?_).trans_eq (uniform_const rs _))
    exact search P hP key rs hs h c g hg (a keys) (ha keys)
  have h3 : G ≤ _ := mixes_good P hP hp hb (pairs key rs) (pairs_nodup key rs) [] (ends rs) empty (fun _ h => (h rfl).elim) (fun _ _ => False)
    (fun _ _ h => (h rfl).elim) (fun _ _ _ h => h)
  refine h1.trans (h2.trans ?_)
  have hlen := pairs_length key rs
  have hends : (ends rs).length = rs.length := by simp [ends]
  rw [hends, List.length_nil, Nat.cast_zero, zero_add] at h3
  have b1 : (pairs key rs).length * P.p * (4 * P.r * P.N + 1) ≤ S := by
    rw [hS]
    calc (pairs key rs).length * P.p * (4 * P.r * P.N + 1) ≤ Fintype.card α * rs.length * P.p * (4 * P.r * P.N + 1) := by gcongr
      _ = Fintype.card α * rs.length * (price P + P.p) := by rw [price]; ring
      _ ≤ _ := Nat.mul_le_mul_left _ (by omega)
  have b2 : (pairs key rs).length * (P.p * (4 * P.r * P.N) + 1) + rs.length ≤ S := by
    rw [hS]
    calc (pairs key rs).length * (P.p * (4 * P.r * P.N) + 1) + rs.length
        ≤ Fintype.card α * rs.length * (P.p * (4 * P.r * P.N) + 1) + Fintype.card α * rs.length := by
          gcongr
          exact Nat.le_mul_of_pos_left _ hA
      _ = Fintype.card α * rs.length * (price P + 2) := by rw [price]; ring
      _ ≤ _ := Nat.mul_le_mul_left _ (by omega)
  have b3 : rs.length * (P.p * (4 * P.r * P.N)) ≤ S := by
    rw [hS]
    calc rs.length * (P.p * (4 * P.r * P.N)) ≤ Fintype.card α * rs.length * price P := by
          rw [price, show P.p * (4 * P.r * P.N) = 4 * P.r * P.N * P.p by ring]
          gcongr
          exact Nat.le_mul_of_pos_left _ hA
      _ ≤ _ := Nat.mul_le_mul_left _ (by omega)
  have c1 : G ≤ (P.N : ℚ) * S * S * ε := by
    refine h3.trans ?_
    have q1 : ((pairs key rs).length : ℚ) * P.p * (4 * P.r * P.N + 1 : Nat) ≤ S := by exact_mod_cast b1
    have q2 : ((pairs key rs).length : ℚ) * (P.p * (4 * P.r * P.N : Nat) + 1) + rs.length ≤ S := by exact_mod_cast b2
    calc _ ≤ (S : ℚ) * P.N * S * ε := by gcongr
      _ = _ := by ring
  have c2 : (rs.length : ℚ) * ((P.p : ℚ) * (4 * P.r * P.N : Nat) * P.N * (c + P.p * (4 * P.r * P.N : Nat) + h) * ε) ≤ (P.N : ℚ) * S * (S + h + c) * ε := by
    rcases Nat.eq_zero_or_pos rs.length with h0 | h0
    · rw [h0]
      have : (0 : ℚ) ≤ (P.N : ℚ) * S * (S + h + c) * ε := by positivity
      simpa using this
    · have q3 : (rs.length : ℚ) * (P.p * (4 * P.r * P.N : Nat)) ≤ S := by exact_mod_cast b3
      have q4 : (P.p : ℚ) * (4 * P.r * P.N : Nat) ≤ S := by exact_mod_cast (Nat.le_mul_of_pos_left _ h0).trans b3
      calc _ = ((rs.length : ℚ) * (P.p * (4 * P.r * P.N : Nat))) * P.N * (c + P.p * (4 * P.r * P.N : Nat) + h) * ε := by ring
        _ ≤ (S : ℚ) * P.N * (c + S + h) * ε := by gcongr
        _ = _ := by ring
  have e : (P.N : ℚ) * S * (2 * S + h + c) / 2 ^ 512 = (P.N : ℚ) * S * S * ε + (P.N : ℚ) * S * (S + h + c) * ε := by
    rw [ε]
    generalize (2 : ℚ) ^ 512 = K
    ring
  rw [e]
  linarith

end

end Spec.ScryptPrice
