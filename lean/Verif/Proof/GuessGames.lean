import Verif.Spec.GuessGames
import Verif.Proof.KeyGames
import Mathlib.Algebra.BigOperators.Group.List.Basic

/-!
With a random function in the place of HMAC, keys derived by PBKDF2 look random to an attacker that does not itself go through all the
iterations for a user and the password of this user.
-/

namespace Spec.GuessGames
open Spec Spec.Games
open Spec.KeyGames (Digest count card_digest avg_shift shift_shift avg_hit beBytes4_inj beBytes_length draw_take zero_xor)

attribute [local irreducible] avg

/-- Values of the function that have been drawn. -/
abbrev Table := List ((List Byte × List Byte) × Digest)

/-- The probability of one digest. -/
def ε : ℚ := 1 / N / 2 ^ 128

theorem ε_nonneg : 0 ≤ ε := by
  rw [ε, N_eq]
  positivity

theorem ε_eq : ε = 1 / 2 ^ 256 := by
  rw [ε, N_eq]
  norm_num

theorem avg_in (l : List (List Byte)) : (avg fun u : Digest => if u.toList ∈ l then (1 : ℚ) else 0) ≤ l.length * ε := by
  refine (avg_hit l).trans (le_of_eq ?_)
  rw [ε]
  ring

variable {β : Type} {good : β → Bool}

theorem random_nonneg (a : Algorithm β) (t : Table) : 0 ≤ a.random good t := by
  induction a generalizing t with
  | result b => rw [Algorithm.random]; split <;> norm_num
  | eval key x next ih =>
    rw [Algorithm.random]
    split
    · exact ih _ _
    · exact avg_nonneg fun y => ih _ _

theorem random_le_one (a : Algorithm β) (t : Table) : a.random good t ≤ 1 := by
  induction a generalizing t with
  | result b => rw [Algorithm.random]; split <;> norm_num
  | eval key x next ih =>
    rw [Algorithm.random]
    split
    · exact ih _ _
    · exact avg_le_one fun y => ih _ _

theorem random_apart (a a' : Algorithm β) (t t' : Table) : |a.random good t - a'.random good t'| ≤ 1 :=
  abs_sub_le_one (random_nonneg _ _) (random_le_one _ _) (random_nonneg _ _) (random_le_one _ _)

theorem random_congr (a : Algorithm β) (t t' : Table) (h : ∀ q, t.lookup q = t'.lookup q) : a.random good t = a.random good t' := by
  induction a generalizing t t' with
  | result b => rfl
  | eval key x next ih =>
    rw [Algorithm.random, Algorithm.random, h]
    split
    · exact ih _ _ _ h
    · refine congrArg avg (funext fun y => ih _ _ _ fun q => ?_)
      rw [List.lookup_cons, List.lookup_cons, h]

theorem lookup_of_not_mem {q : List Byte × List Byte} {t : Table} (h : q ∉ t.map (·.1)) : t.lookup q = none := by
  rw [List.lookup_eq_none_iff]
  intro p hp
  simpa using fun e => h (List.mem_map.2 ⟨p, hp, e.symm⟩)

/-! ### Values that are drawn beforehand -/

/-- The mean over the hidden values of a chain: `n` values at random, then a last one such that the sum of all is `R`. The chain starts with the
message `e`. -/
def hide (p : List Byte) : Nat → List Byte → Digest → (Table → ℚ) → ℚ
  | 0, e, R, f => f [((p, e), R)]
  | n + 1, e, R, f => avg fun v : Digest => hide p n v.toList (List.Vector.map₂ (· ^^^ ·) R v) fun t => f (((p, e), v) :: t)

theorem hide_close {p : List Byte} {n : Nat} {e : List Byte} {R : Digest} {f g : Table → ℚ} (d : Table → ℚ) (h : ∀ t, |f t - g t| ≤ d t) :
    |hide p n e R f - hide p n e R g| ≤ hide p n e R d := by
  induction n generalizing e R f g d with
  | zero => exact h _
  | succ n ih => exact avg_close _ fun v => ih _ fun t => h _

theorem hide_mono {p : List Byte} {n : Nat} {e : List Byte} {R : Digest} {f g : Table → ℚ} (h : ∀ t, f t ≤ g t) :
    hide p n e R f ≤ hide p n e R g := by
  induction n generalizing e R f g with
  | zero => exact h _
  | succ n ih => exact avg_mono fun v => ih fun t => h _

theorem hide_const {p : List Byte} {n : Nat} {e : List Byte} {R : Digest} (c : ℚ) : hide p n e R (fun _ => c) = c := by
  induction n generalizing e R with
  | zero => rfl
  | succ n ih => simp only [hide, ih, avg_const]

theorem hide_add {p : List Byte} {n : Nat} {e : List Byte} {R : Digest} (f g : Table → ℚ) :
    hide p n e R (fun t => f t + g t) = hide p n e R f + hide p n e R g := by
  induction n generalizing e R f g with
  | zero => rfl
  | succ n ih => simp only [hide, ih, avg_add]

theorem hide_avg {α : Type} [Fintype α] {p : List Byte} {n : Nat} {e : List Byte} {R : Digest} (f : α → Table → ℚ) :
    (hide p n e R fun t => avg fun y => f y t) = avg fun y => hide p n e R (f y) := by
  induction n generalizing e R f with
  | zero => rfl
  | succ n ih =>
    simp only [hide, ih]
    exact avg_comm _

/-- One if the table has a value for `q`. -/
def has (q : List Byte × List Byte) (t : Table) : ℚ := if q ∈ t.map (·.1) then 1 else 0

theorem has_nonneg (q : List Byte × List Byte) (t : Table) : 0 ≤ has q t := by
  rw [has]
  split <;> norm_num

theorem has_le_one (q : List Byte × List Byte) (t : Table) : has q t ≤ 1 := by
  rw [has]
  split <;> norm_num

theorem has_cons {q r : List Byte × List Byte} (h : r ≠ q) (y : Digest) (t : Table) : has q ((r, y) :: t) = has q t := by
  simp only [has, List.map_cons, List.mem_cons, or_iff_right h.symm]

theorem has_append (q : List Byte × List Byte) (t t' : Table) : has q (t ++ t') ≤ has q t + has q t' := by
  simp only [has, List.map_append, List.mem_append]
  split_ifs <;> first | (exfalso; tauto) | norm_num

theorem hide_has {p : List Byte} {n : Nat} {e : List Byte} {R : Digest} {q : List Byte × List Byte} (h : (p, e) ≠ q) :
    hide p n e R (has q) ≤ n * ε := by
  induction n generalizing e R with
  | zero =>
    rw [hide, has_cons h]
    simp [has]
  | succ n ih =>
    have h1 (v : Digest) : (hide p n v.toList (List.Vector.map₂ (· ^^^ ·) R v) fun t => has q (((p, e), v) :: t)) ≤
        (if v.toList ∈ [q.2] then 1 else 0) + n * ε := by
      simp only [has_cons h]
      split_ifs with hv
      · have := hide_mono (p := p) (n := n) (e := v.toList) (R := List.Vector.map₂ (· ^^^ ·) R v) fun t => has_le_one q t
        rw [hide_const] at this
        have := mul_nonneg (Nat.cast_nonneg (α := ℚ) n) ε_nonneg
        linarith
      · rw [zero_add]
        refine ih ?_
        rintro rfl
        simp at hv
    refine (avg_mono h1).trans ?_
    rw [avg_add, avg_const]
    have := avg_in [q.2]
    push_cast
    simp only [List.length_singleton, Nat.cast_one] at this
    linarith

/-- A chain of which some values are hidden. -/
structure Chain where
  p : List Byte
  e : List Byte
  n : Nat
  R : Digest

def hideAll : List Chain → (Table → ℚ) → ℚ
  | [], f => f []
  | c :: cs, f => hide c.p c.n c.e c.R fun t => hideAll cs fun t' => f (t ++ t')

theorem hideAll_close {cs : List Chain} {f g : Table → ℚ} (d : Table → ℚ) (h : ∀ t, |f t - g t| ≤ d t) :
    |hideAll cs f - hideAll cs g| ≤ hideAll cs d := by
  induction cs generalizing f g d with
  | nil => exact h _
  | cons c cs ih => exact hide_close _ fun t => ih _ fun t' => h _

theorem hideAll_mono {cs : List Chain} {f g : Table → ℚ} (h : ∀ t, f t ≤ g t) : hideAll cs f ≤ hideAll cs g := by
  induction cs generalizing f g with
  | nil => exact h _
  | cons c cs ih => exact hide_mono fun t => ih fun t' => h _

theorem hideAll_const {cs : List Chain} (c : ℚ) : hideAll cs (fun _ => c) = c := by
  induction cs with
  | nil => rfl
  | cons c cs ih => simp only [hideAll, ih, hide_const]

theorem hideAll_avg {α : Type} [Fintype α] {cs : List Chain} (f : α → Table → ℚ) :
    (hideAll cs fun t => avg fun y => f y t) = avg fun y => hideAll cs (f y) := by
  induction cs generalizing f with
  | nil => rfl
  | cons c cs ih => simp only [hideAll, ih, hide_avg]

theorem hideAll_append (cs cs' : List Chain) (f : Table → ℚ) :
    hideAll (cs ++ cs') f = hideAll cs fun t => hideAll cs' fun t' => f (t ++ t') := by
  induction cs generalizing f with
  | nil => rfl
  | cons c cs ih => simp only [List.cons_append, hideAll, ih, List.append_assoc]

/-- The number of hidden values. -/
def hidden (cs : List Chain) : Nat := (cs.map (·.n)).sum

theorem hideAll_has {cs : List Chain} {q : List Byte × List Byte} (h : ∀ c ∈ cs, (c.p, c.e) ≠ q) :
    hideAll cs (has q) ≤ hidden cs * ε := by
  induction cs with
  | nil => simp [hideAll, hidden, has]
  | cons c cs ih =>
    have h1 : hideAll (c :: cs) (has q) ≤ hide c.p c.n c.e c.R fun t => has q t + hidden cs * ε := by
      refine hide_mono fun t => ?_
      refine le_trans (hideAll_mono fun t' => has_append q t t') ?_
      have h2 : (hideAll cs fun t' => has q t + has q t') = has q t + hideAll cs (has q) := by
        clear h ih
        generalize has q = g
        generalize g t = a
        induction cs generalizing g with
        | nil => rfl
        | cons c cs ih => simp only [hideAll, ih, hide_add, hide_const]
      rw [h2]
      exact add_le_add le_rfl (ih fun c hc => h c (List.mem_cons_of_mem _ hc))
    refine h1.trans ?_
    rw [hide_add, hide_const]
    have h3 := hide_has (n := c.n) (R := c.R) (h c List.mem_cons_self)
    simp only [hidden, List.map_cons, List.sum_cons, Nat.cast_add]
    linarith

/-! ### Going through a chain -/

/-- What the attacker has reached of a chain: it has not evaluated the function at `e`, and `n` more evaluations follow that one. -/
structure Ptr where
  p : List Byte
  e : List Byte
  n : Nat

def Chain.ptr (c : Chain) : Ptr := ⟨c.p, c.e, c.n⟩

/-- The chain that goes on with this evaluation. -/
def Ptr.find (ps : List Ptr) (key x : List Byte) : Option Nat := ps.findIdx? fun q => q.p == key && q.e == x

def Ptr.left (ps : List Ptr) (i : Nat) : Nat := (ps.getD i ⟨[], [], 0⟩).n

/-- The probability that the algorithm goes through all of a chain, all values of the function being random. -/
def done : List Ptr → Table → Algorithm β → ℚ
  | _, _, .result _ => 0
  | ps, known, .eval key x next => match known.lookup (key, x) with
    | some y => done ps known (next y)
    | none => match Ptr.find ps key x with
      | none => avg fun y : Digest => done ps (((key, x), y) :: known) (next y)
      | some i => if Ptr.left ps i = 0 then 1
        else avg fun y : Digest => done (ps.set i ⟨key, y.toList, Ptr.left ps i - 1⟩) (((key, x), y) :: known) (next y)

theorem done_nonneg (ps : List Ptr) (t : Table) (a : Algorithm β) : 0 ≤ done ps t a := by
  induction a generalizing ps t with
  | result b => exact le_rfl
  | eval key x next ih =>
    rw [done]
    split
    · exact ih _ _ _
    · split
      · exact avg_nonneg fun y => ih _ _ _
      · split
        · exact zero_le_one
        · exact avg_nonneg fun y => ih _ _ _

theorem done_le_one (ps : List Ptr) (t : Table) (a : Algorithm β) : done ps t a ≤ 1 := by
  induction a generalizing ps t with
  | result b => exact zero_le_one
  | eval key x next ih =>
    rw [done]
    split
    · exact ih _ _ _
    · split
      · exact avg_le_one fun y => ih _ _ _
      · split
        · exact le_rfl
        · exact avg_le_one fun y => ih _ _ _

theorem hideAll_bounds {cs : List Chain} {f : Table → ℚ} (h0 : ∀ t, 0 ≤ f t) (h1 : ∀ t, f t ≤ 1) : 0 ≤ hideAll cs f ∧ hideAll cs f ≤ 1 := by
  have a := hideAll_mono (cs := cs) h0
  have b := hideAll_mono (cs := cs) h1
  rw [hideAll_const] at a b
  exact ⟨a, b⟩

theorem apart_has {f g : ℚ} {q : List Byte × List Byte} {t : Table} (h : |f - g| ≤ 1) (h' : q ∉ t.map (·.1) → f = g) : |f - g| ≤ has q t := by
  rw [has]
  split_ifs with hq
  · exact h
  · rw [h' hq, sub_self, abs_zero]

/-- Values that are drawn beforehand are noticed only by going through all of a chain, or by chance. -/
theorem hidden_close (a : Algorithm β) (q h : Nat) (ha : a.Within q) (cs : List Chain) (hh : hidden cs ≤ h) (known : Table) :
    |(hideAll cs fun t => a.random good (known ++ t)) - a.random good known| ≤ done (cs.map Chain.ptr) known a + q * (h * ε) := by
  have hε := ε_nonneg
  have hhε : (0 : ℚ) ≤ h * ε := by positivity
  induction a generalizing q cs known with
  | result b =>
    simp only [Algorithm.random, hideAll_const, sub_self, abs_zero, done]
    positivity
  | eval key x next ih =>
    obtain ⟨hq, ha⟩ := ha
    have hq' : ((q : ℚ) * (h * ε)) = h * ε + ((q - 1 : Nat) : ℚ) * (h * ε) := by
      rw [Nat.cast_sub hq]
      push_cast
      ring
    have hapart := hideAll_bounds (cs := cs) (fun t => random_nonneg (good := good) (.eval key x next) (known ++ t))
      (fun t => random_le_one (.eval key x next) (known ++ t))
    have hapart' := abs_sub_le_one hapart.1 hapart.2 (random_nonneg (good := good) (.eval key x next) known) (random_le_one _ _)
    rw [done]
    split
    · rename_i y hy
      have e (t : Table) : (Algorithm.eval key x next).random good (known ++ t) = (next y).random good (known ++ t) := by
        rw [Algorithm.random, List.lookup_append, hy]
        rfl
      have e' : (Algorithm.eval key x next).random good known = (next y).random good known := by rw [Algorithm.random, hy]
      rw [e']
      simp only [e]
      refine (ih y (q - 1) (ha y) cs hh known).trans ?_
      rw [hq']
      linarith
    · rename_i hnone
      have e' : (Algorithm.eval key x next).random good known = avg fun y => (next y).random good (((key, x), y) :: known) := by
        rw [Algorithm.random, hnone]
      split
      · rename_i hfind
        have hne : ∀ c ∈ cs, (c.p, c.e) ≠ (key, x) := by
          intro c hc e
          rw [Ptr.find, List.findIdx?_eq_none_iff] at hfind
          have := hfind c.ptr (List.mem_map.2 ⟨c, hc, rfl⟩)
          obtain ⟨e1, e2⟩ := Prod.mk.inj e
          simp [Chain.ptr, e1, e2] at this
        have h1 := hideAll_close (cs := cs) (f := fun t => (Algorithm.eval key x next).random good (known ++ t))
          (g := fun t => avg fun y => (next y).random good (((key, x), y) :: known ++ t)) (has (key, x)) (fun t => by
            refine apart_has ?_ fun hn => ?_
            · exact abs_sub_le_one (random_nonneg _ _) (random_le_one _ _) (avg_nonneg fun y => random_nonneg _ _)
                (avg_le_one fun y => random_le_one _ _)
            · rw [Algorithm.random, List.lookup_append, hnone, lookup_of_not_mem hn]
              rfl)
        have h2 := hideAll_has (cs := cs) hne
        rw [hideAll_avg] at h1
        have h3 := avg_close (f := fun y : Digest => hideAll cs fun t => (next y).random good (((key, x), y) :: known ++ t))
          (g := fun y => (next y).random good (((key, x), y) :: known)) _ fun y => ih y (q - 1) (ha y) cs hh (((key, x), y) :: known)
        rw [avg_add, avg_const, ← e'] at h3
        have h4 : (hidden cs : ℚ) * ε ≤ h * ε := mul_le_mul_of_nonneg_right (Nat.cast_le.2 hh) hε
        rw [hq']
        refine (abs_sub_le _ _ _).trans ((add_le_add h1 h3).trans ?_)
        linarith
      · rename_i i hfind
        split
        · refine hapart'.trans ?_
          have : (0 : ℚ) ≤ q * (h * ε) := by positivity
          linarith
        · rename_i hleft
          rw [Ptr.find, List.findIdx?_eq_some_iff_getElem] at hfind
          obtain ⟨hi, hpi, hpre⟩ := hfind
          have hi' : i < cs.length := by simpa using hi
          have hc : Ptr.left (cs.map Chain.ptr) i = cs[i].n := by
            rw [Ptr.left, List.getD_eq_getElem?_getD, List.getElem?_eq_getElem hi]
            simp [Chain.ptr]
          rw [hc] at hleft ⊢
          obtain ⟨n, hn⟩ : ∃ n, cs[i].n = n + 1 := ⟨cs[i].n - 1, by omega⟩
          have hp : cs[i].p = key ∧ cs[i].e = x := by simpa [Chain.ptr] using hpi
          have hset (v : Digest) : (cs.map Chain.ptr).set i ⟨key, v.toList, cs[i].n - 1⟩ =
              (cs.set i ⟨key, v.toList, n, List.Vector.map₂ (· ^^^ ·) cs[i].R v⟩).map Chain.ptr := by
            rw [List.map_set, hn]
            rfl
          have hsplit : cs = cs.take i ++ cs[i] :: cs.drop (i + 1) := by
            rw [List.getElem_cons_drop, List.take_append_drop]
          have hne : ∀ c ∈ cs.take i, (c.p, c.e) ≠ (key, x) := by
            intro c hc e
            obtain ⟨j, hj, rfl⟩ := List.mem_iff_getElem.1 hc
            rw [List.length_take] at hj
            have := hpre j (by omega)
            obtain ⟨e1, e2⟩ := Prod.mk.inj e
            rw [List.getElem_take] at e1 e2
            simp [Chain.ptr, e1, e2] at this
          have hsum : hidden cs = hidden (cs.take i) + (n + 1 + hidden (cs.drop (i + 1))) := by
            refine (congrArg hidden hsplit).trans ?_
            simp only [hidden, List.map_append, List.map_cons, List.sum_append, List.sum_cons, hn]
          have hsum' (v : Digest) : hidden (cs.set i ⟨key, v.toList, n, List.Vector.map₂ (· ^^^ ·) cs[i].R v⟩) ≤ h := by
            rw [List.set_eq_take_append_cons_drop, if_pos hi']
            simp only [hidden, List.map_append, List.map_cons, List.sum_append, List.sum_cons] at hsum hh ⊢
            omega
          have h1 : |(hideAll cs fun t => (Algorithm.eval key x next).random good (known ++ t)) -
              avg fun v : Digest => hideAll (cs.set i ⟨key, v.toList, n, List.Vector.map₂ (· ^^^ ·) cs[i].R v⟩)
                fun t => (next v).random good (((key, x), v) :: known ++ t)| ≤ h * ε := by
            have eL : (hideAll cs fun t => (Algorithm.eval key x next).random good (known ++ t)) =
                hideAll (cs.take i) fun t1 => avg fun v : Digest => hide key n v.toList (List.Vector.map₂ (· ^^^ ·) cs[i].R v) fun t2 =>
                  hideAll (cs.drop (i + 1)) fun t3 =>
                    (Algorithm.eval key x next).random good (known ++ (t1 ++ (((key, x), v) :: t2 ++ t3))) := by
              conv_lhs => rw [hsplit]
              rw [hideAll_append]
              simp only [hideAll, hn, hide, hp.1, hp.2]
            have eR : (avg fun v : Digest => hideAll (cs.set i ⟨key, v.toList, n, List.Vector.map₂ (· ^^^ ·) cs[i].R v⟩)
                fun t => (next v).random good (((key, x), v) :: known ++ t)) =
                hideAll (cs.take i) fun t1 => avg fun v : Digest => hide key n v.toList (List.Vector.map₂ (· ^^^ ·) cs[i].R v) fun t2 =>
                  hideAll (cs.drop (i + 1)) fun t3 => (next v).random good (((key, x), v) :: known ++ (t1 ++ (t2 ++ t3))) := by
              rw [hideAll_avg]
              refine congrArg avg (funext fun v => ?_)
              rw [List.set_eq_take_append_cons_drop, if_pos hi', hideAll_append]
              rfl
            rw [eL, eR]
            refine (hideAll_close (has (key, x)) fun t1 => ?_).trans ((hideAll_has hne).trans
              (mul_le_mul_of_nonneg_right (Nat.cast_le.2 (by omega)) hε))
            have := avg_close (f := fun v : Digest => hide key n v.toList (List.Vector.map₂ (· ^^^ ·) cs[i].R v) fun t2 =>
                  hideAll (cs.drop (i + 1)) fun t3 =>
                    (Algorithm.eval key x next).random good (known ++ (t1 ++ (((key, x), v) :: t2 ++ t3))))
                (g := fun v : Digest => hide key n v.toList (List.Vector.map₂ (· ^^^ ·) cs[i].R v) fun t2 =>
                  hideAll (cs.drop (i + 1)) fun t3 => (next v).random good (((key, x), v) :: known ++ (t1 ++ (t2 ++ t3))))
                (fun _ => has (key, x) t1) fun v => by
              have hcl := hide_close (p := key) (n := n) (e := v.toList) (R := List.Vector.map₂ (· ^^^ ·) cs[i].R v)
                (f := fun t2 => hideAll (cs.drop (i + 1)) fun t3 =>
                    (Algorithm.eval key x next).random good (known ++ (t1 ++ (((key, x), v) :: t2 ++ t3))))
                (g := fun t2 => hideAll (cs.drop (i + 1)) fun t3 => (next v).random good (((key, x), v) :: known ++ (t1 ++ (t2 ++ t3))))
                (fun _ => has (key, x) t1) fun t2 => by
                have hcl := hideAll_close (cs := cs.drop (i + 1)) (f := fun t3 =>
                    (Algorithm.eval key x next).random good (known ++ (t1 ++ (((key, x), v) :: t2 ++ t3))))
                  (g := fun t3 => (next v).random good (((key, x), v) :: known ++ (t1 ++ (t2 ++ t3))))
                  (fun _ => has (key, x) t1) fun t3 => apart_has (random_apart _ _ _ _) fun hnm => by
                    have hl := lookup_of_not_mem hnm
                    rw [Algorithm.random, List.lookup_append, hnone, List.lookup_append, hl]
                    simp only [List.cons_append, List.lookup_cons_self, Option.none_or]
                    refine random_congr _ _ _ fun r => ?_
                    simp only [List.lookup_append, List.lookup_cons]
                    by_cases hr : r = (key, x)
                    · subst hr
                      simp [hnone, hl]
                    · have : (r == (key, x)) = false := by simpa using hr
                      rw [this]
                rwa [hideAll_const] at hcl
              rwa [hide_const] at hcl
            rwa [avg_const] at this
          have h3 := avg_close (f := fun v : Digest => hideAll (cs.set i ⟨key, v.toList, n, List.Vector.map₂ (· ^^^ ·) cs[i].R v⟩)
              fun t => (next v).random good (((key, x), v) :: known ++ t))
            (g := fun v => (next v).random good (((key, x), v) :: known)) _ fun v =>
              ih v (q - 1) (ha v) (cs.set i ⟨key, v.toList, n, List.Vector.map₂ (· ^^^ ·) cs[i].R v⟩) (hsum' v) (((key, x), v) :: known)
          rw [avg_add, avg_const, ← e'] at h3
          simp only [hset]
          rw [hq']
          refine (abs_sub_le _ _ _).trans ((add_le_add h1 h3).trans ?_)
          linarith

/-! ### PBKDF2 draws new values, up to collisions -/

/-- The mean over `c` iterations when all the values are drawn anew. -/
def free (p : List Byte) : Nat → List Byte → Digest → (Digest → Table → ℚ) → ℚ
  | 0, _, acc, f => f acc []
  | c + 1, x, acc, f => avg fun y : Digest => free p c y.toList (List.Vector.map₂ (· ^^^ ·) acc y) fun T t => f T (((p, x), y) :: t)

theorem xor_right_comm (a b c : Digest) : List.Vector.map₂ (· ^^^ ·) (List.Vector.map₂ (· ^^^ ·) a b) c =
    List.Vector.map₂ (· ^^^ ·) (List.Vector.map₂ (· ^^^ ·) a c) b := by
  apply List.Vector.ext
  intro i
  simp only [List.Vector.get_map₂, BitVec.xor_assoc]
  rw [BitVec.xor_comm (b.get i)]

/-- The sum may be drawn first. -/
theorem free_eq (p : List Byte) (n : Nat) (x : List Byte) (acc : Digest) (f : Digest → Table → ℚ) :
    free p (n + 1) x acc f = avg fun T : Digest => hide p n x (List.Vector.map₂ (· ^^^ ·) acc T) (f T) := by
  induction n generalizing x acc f with
  | zero =>
    rw [free, ← avg_shift acc]
    refine congrArg avg (funext fun y => ?_)
    rw [shift_shift]
    rfl
  | succ n ih =>
    rw [free]
    simp only [ih, hide]
    rw [avg_comm]
    refine congrArg avg (funext fun T => congrArg avg (funext fun v => ?_))
    rw [xor_right_comm]

theorem free_bounds {p : List Byte} {c : Nat} {x : List Byte} {acc : Digest} {f : Digest → Table → ℚ} (h0 : ∀ T t, 0 ≤ f T t)
    (h1 : ∀ T t, f T t ≤ 1) : 0 ≤ free p c x acc f ∧ free p c x acc f ≤ 1 := by
  induction c generalizing x acc f with
  | zero => exact ⟨h0 _ _, h1 _ _⟩
  | succ c ih =>
    exact ⟨avg_nonneg fun y => (ih (fun T t => h0 _ _) fun T t => h1 _ _).1, avg_le_one fun y => (ih (fun T t => h0 _ _) fun T t => h1 _ _).2⟩

theorem iterate_close (p : List Byte) (S : List (List Byte × List Byte)) (m c : Nat) (x : List Byte) (acc : Digest) (K : Table)
    (hK : (p, x) ∉ K.map (·.1)) (hxS : (p, x) ∉ S) (hS : ∀ s ∈ S, s ∉ K.map (·.1)) (hm : K.length + c ≤ m)
    (k : Digest → Algorithm β) (G : Digest → Table → ℚ) (hG : ∀ T t, 0 ≤ G T t) (hG' : ∀ T t, G T t ≤ 1) (δ : ℚ)
    (hk : ∀ T K', K'.length = K.length + c → (∀ s ∈ S, s ∉ K'.map (·.1)) → |(k T).random good K' - G T K'| ≤ δ) :
    |(iterate p c x acc k).random good K - free p c x acc fun T t => G T (K ++ t)| ≤ c * ((m + S.length : Nat) * ε) + δ := by
  have hε := ε_nonneg
  induction c generalizing x acc K with
  | zero =>
    simp only [iterate, free, List.append_nil, Nat.cast_zero, zero_mul, zero_add]
    exact hk acc K (by simp) hS
  | succ c ih =>
    rw [iterate, Algorithm.random, lookup_of_not_mem hK, free]
    have hlen : K.length + 1 + c = K.length + (c + 1) := by omega
    have h1 (y : Digest) : |(iterate p c y.toList (List.Vector.map₂ (· ^^^ ·) acc y) k).random good (((p, x), y) :: K) -
        free p c y.toList (List.Vector.map₂ (· ^^^ ·) acc y) fun T t => G T (K ++ ((p, x), y) :: t)| ≤
        (if y.toList ∈ ((p, x) :: K.map (·.1) ++ S).map (·.2) then 1 else 0) + (c * ((m + S.length : Nat) * ε) + δ) := by
      have e : (iterate p c y.toList (List.Vector.map₂ (· ^^^ ·) acc y) k).random good (((p, x), y) :: K) =
          (iterate p c y.toList (List.Vector.map₂ (· ^^^ ·) acc y) k).random good (K ++ [((p, x), y)]) := by
        refine random_congr _ _ _ fun r => ?_
        rw [List.lookup_append, List.lookup_cons, List.lookup_cons]
        by_cases hr : r = (p, x)
        · subst hr
          simp [lookup_of_not_mem hK]
        · have : (r == (p, x)) = false := by simpa using hr
          rw [this]
          cases List.lookup r K <;> rfl
      have e' : (fun (T : Digest) (t : Table) => G T (K ++ ((p, x), y) :: t)) = fun T t => G T (K ++ [((p, x), y)] ++ t) := by
        funext T t
        rw [List.append_assoc]
        rfl
      rw [e, e']
      by_cases hy : y.toList ∈ ((p, x) :: K.map (·.1) ++ S).map (·.2)
      · rw [if_pos hy]
        have hb := free_bounds (p := p) (c := c) (x := y.toList) (acc := List.Vector.map₂ (· ^^^ ·) acc y)
          (f := fun T t => G T (K ++ [((p, x), y)] ++ t)) (fun T t => hG _ _) fun T t => hG' _ _
        refine (abs_sub_le_one (random_nonneg _ _) (random_le_one _ _) hb.1 hb.2).trans ?_
        have : 0 ≤ δ := (abs_nonneg _).trans (hk acc (List.replicate (K.length + (c + 1)) ((p, x), y)) (by simp) fun s hs h => by
          simp only [List.map_replicate, List.mem_replicate] at h
          exact hxS (h.2 ▸ hs))
        have : (0 : ℚ) ≤ c * ((m + S.length : Nat) * ε) := by positivity
        linarith
      · rw [if_neg hy, zero_add]
        have hy' : (p, y.toList) ∉ (p, x) :: K.map (·.1) ++ S := fun h => hy (List.mem_map.2 ⟨_, h, rfl⟩)
        simp only [List.cons_append, List.mem_cons, List.mem_append, not_or] at hy'
        refine ih y.toList _ (K ++ [((p, x), y)]) ?_ hy'.2.2 ?_ ?_ ?_
        · simp only [List.map_append, List.map_cons, List.map_nil, List.mem_append, List.mem_singleton, not_or]
          exact ⟨hy'.2.1, hy'.1⟩
        · intro s hs
          simp only [List.map_append, List.map_cons, List.map_nil, List.mem_append, List.mem_singleton, not_or]
          exact ⟨hS s hs, fun h => hxS (h ▸ hs)⟩
        · simp only [List.length_append, List.length_singleton]
          omega
        · intro T K' hK'
          refine hk T K' ?_
          simp only [List.length_append, List.length_singleton] at hK'
          omega
    refine (avg_close _ h1).trans ?_
    rw [avg_add, avg_const]
    have h2 := avg_in (((p, x) :: K.map (·.1) ++ S).map (·.2))
    have h3 : ((((p, x) :: K.map (·.1) ++ S).map (·.2)).length : ℚ) * ε ≤ (m + S.length : Nat) * ε := by
      refine mul_le_mul_of_nonneg_right (Nat.cast_le.2 ?_) hε
      simp only [List.length_map, List.length_append, List.length_cons]
      omega
    push_cast at h2 h3 ⊢
    linarith

/-- A block of a key: what is iterated, and how often. -/
structure Tgt where
  key : List Byte
  x : List Byte
  c : Nat

def serve : List Tgt → (List Digest → Algorithm β) → Algorithm β
  | [], k => k []
  | g :: gs, k => iterate g.key g.c g.x (List.Vector.replicate 32 0) fun T => serve gs fun Ts => k (T :: Ts)

def freeAll : List Tgt → (List Digest → Table → ℚ) → ℚ
  | [], f => f [] []
  | g :: gs, f => free g.key g.c g.x (List.Vector.replicate 32 0) fun T t => freeAll gs fun Ts t' => f (T :: Ts) (t ++ t')

theorem freeAll_bounds {gs : List Tgt} {f : List Digest → Table → ℚ} (h0 : ∀ T t, 0 ≤ f T t) (h1 : ∀ T t, f T t ≤ 1) :
    0 ≤ freeAll gs f ∧ freeAll gs f ≤ 1 := by
  induction gs generalizing f with
  | nil => exact ⟨h0 _ _, h1 _ _⟩
  | cons g gs ih =>
    exact free_bounds (fun T t => (ih (fun Ts t' => h0 _ _) fun Ts t' => h1 _ _).1) fun T t => (ih (fun Ts t' => h0 _ _) fun Ts t' => h1 _ _).2

/-- The number of iterations. -/
def total (gs : List Tgt) : Nat := (gs.map (·.c)).sum

theorem serve_close (gs : List Tgt) (m l : Nat) (K : Table) (hl : gs.length ≤ l) (hnd : (gs.map fun g => (g.key, g.x)).Nodup)
    (hK : ∀ g ∈ gs, (g.key, g.x) ∉ K.map (·.1)) (hm : K.length + total gs ≤ m) (k : List Digest → Algorithm β) :
    |(serve gs k).random good K - freeAll gs fun Ts t => (k Ts).random good (K ++ t)| ≤ total gs * ((m + l : Nat) * ε) := by
  have hε := ε_nonneg
  induction gs generalizing K k with
  | nil =>
    simp only [serve, freeAll, List.append_nil, sub_self, abs_zero]
    positivity
  | cons g gs ih =>
    simp only [List.length_cons] at hl
    simp only [List.map_cons, List.nodup_cons] at hnd
    have ht : total (g :: gs) = g.c + total gs := by simp [total]
    rw [ht] at hm
    have h1 := iterate_close (good := good) g.key (gs.map fun g => (g.key, g.x)) m g.c g.x (List.Vector.replicate 32 0) K
      (hK g List.mem_cons_self) hnd.1 (by
        intro s hs
        obtain ⟨g', hg', rfl⟩ := List.mem_map.1 hs
        exact hK g' (List.mem_cons_of_mem _ hg')) (by omega)
      (fun T => serve gs fun Ts => k (T :: Ts)) (fun T K' => freeAll gs fun Ts t' => (k (T :: Ts)).random good (K' ++ t'))
      (fun T t => (freeAll_bounds (fun Ts t' => random_nonneg _ _) fun Ts t' => random_le_one _ _).1)
      (fun T t => (freeAll_bounds (fun Ts t' => random_nonneg _ _) fun Ts t' => random_le_one _ _).2)
      (total gs * ((m + l : Nat) * ε)) (fun T K' hlen hS => ih K' (by omega) hnd.2 (fun g hg => hS _ (List.mem_map.2 ⟨g, hg, rfl⟩))
        (by omega) _)
    rw [serve, freeAll]
    simp only [List.append_assoc] at h1
    refine h1.trans ?_
    rw [ht, List.length_map]
    have h2 : ((m + gs.length : Nat) : ℚ) * ε ≤ (m + l : Nat) * ε := mul_le_mul_of_nonneg_right (Nat.cast_le.2 (by omega)) hε
    have h3 := mul_le_mul_of_nonneg_left h2 (Nat.cast_nonneg (α := ℚ) g.c)
    rw [Nat.cast_add g.c, add_mul]
    linarith

/-- The mean over a list of random digests. -/
def drawL : Nat → (List Digest → ℚ) → ℚ
  | 0, f => f []
  | n + 1, f => avg fun T : Digest => drawL n fun Ts => f (T :: Ts)

theorem drawL_close {n : Nat} {f g : List Digest → ℚ} (d : List Digest → ℚ) (h : ∀ t, t.length = n → |f t - g t| ≤ d t) :
    |drawL n f - drawL n g| ≤ drawL n d := by
  induction n generalizing f g d with
  | zero => exact h _ rfl
  | succ n ih => exact avg_close _ fun v => ih _ fun t ht => h _ (by rw [List.length_cons, ht])

theorem drawL_mono {n : Nat} {f g : List Digest → ℚ} (h : ∀ t, t.length = n → f t ≤ g t) : drawL n f ≤ drawL n g := by
  induction n generalizing f g with
  | zero => exact h _ rfl
  | succ n ih => exact avg_mono fun v => ih fun t ht => h _ (by rw [List.length_cons, ht])

theorem drawL_const {n : Nat} (c : ℚ) : drawL n (fun _ => c) = c := by
  induction n with
  | zero => rfl
  | succ n ih => simp only [drawL, ih, avg_const]

theorem drawL_add {n : Nat} (f g : List Digest → ℚ) : drawL n (fun t => f t + g t) = drawL n f + drawL n g := by
  induction n generalizing f g with
  | zero => rfl
  | succ n ih => simp only [drawL, ih, avg_add]

theorem drawL_avg {α : Type} [Fintype α] {n : Nat} (f : α → List Digest → ℚ) :
    (drawL n fun t => avg fun y => f y t) = avg fun y => drawL n (f y) := by
  induction n generalizing f with
  | zero => rfl
  | succ n ih =>
    simp only [drawL, ih]
    exact avg_comm _

theorem hide_drawL {p : List Byte} {n : Nat} {e : List Byte} {R : Digest} (m : Nat) (f : List Digest → Table → ℚ) :
    (hide p n e R fun t => drawL m fun Ts => f Ts t) = drawL m fun Ts => hide p n e R (f Ts) := by
  induction m generalizing f with
  | zero => rfl
  | succ m ih =>
    simp only [drawL]
    rw [hide_avg]
    exact congrArg avg (funext fun T => ih _)

/-- The chains, when the sums have been drawn. -/
def chains (gs : List Tgt) (Ts : List Digest) : List Chain := List.zipWith (fun g T => ⟨g.key, g.x, g.c - 1, T⟩) gs Ts

theorem freeAll_eq (gs : List Tgt) (hc : ∀ g ∈ gs, 1 ≤ g.c) (f : List Digest → Table → ℚ) :
    freeAll gs f = drawL gs.length fun Ts => hideAll (chains gs Ts) (f Ts) := by
  induction gs generalizing f with
  | nil => rfl
  | cons g gs ih =>
    obtain ⟨n, hn⟩ : ∃ n, g.c = n + 1 := ⟨g.c - 1, by have := hc g List.mem_cons_self; omega⟩
    rw [freeAll, hn, free_eq, List.length_cons, drawL]
    refine congrArg avg (funext fun T => ?_)
    simp only [zero_xor, ih fun g hg => hc g (List.mem_cons_of_mem _ hg)]
    rw [hide_drawL]
    simp only [chains, List.zipWith_cons_cons, hideAll, hn, Nat.add_sub_cancel]

/-! ### Every chain costs evaluations -/

theorem filter_cost {γ : Type} (f : γ → Nat) (c : Nat) (d : List γ) : (d.filter fun x => c ≤ f x).length * c ≤ (d.map f).sum := by
  induction d with
  | nil => simp
  | cons x d ih =>
    rw [List.filter_cons, List.map_cons, List.sum_cons]
    split_ifs with h
    · rw [List.length_cons, Nat.add_mul, Nat.one_mul]
      have : c ≤ f x := by simpa using h
      omega
    · omega

section
variable {α : Type} [Fintype α] [Nonempty α] (key : α → Nat → List Byte) {M : Nat} (u : Fin M → Nat) (x : Fin M → List Byte) (cc : Fin M → Nat)
  (c Q : Nat) (g : ℚ)

/-- The chains for given passwords: `pos` is how far every chain has been gone through, for every password; and `log` has an entry for every
step. -/
def ptrs (k : Nat → List Byte) (pos : Fin M → List Byte → List Byte) (log : List (Fin M × List Byte)) : List Ptr :=
  List.ofFn fun j => ⟨k (u j), pos j (k (u j)), cc j - 1 - log.count (j, k (u j))⟩

/-- There were `c` steps in some chain. -/
def Caught (k : Nat → List Byte) (log : List (Fin M × List Byte)) : Prop := ∃ j, c ≤ log.count (j, k (u j))

open scoped Classical in
omit [Nonempty α] in
theorem caught_le (hc : 1 ≤ c) (hg : ∀ L : List (Nat × List Byte), L.length * c ≤ Q → guessed key L ≤ g) (log : List (Fin M × List Byte))
    (hl : log.length ≤ Q) : (avg fun a => if Caught u c (key a) log then (1 : ℚ) else 0) ≤ g := by
  refine le_trans (avg_mono fun a => ?_) (hg ((log.dedup.filter fun e => c ≤ log.count e).map fun e => (u e.1, e.2)) ?_)
  · split_ifs with h h'
    · exact le_rfl
    · exfalso
      obtain ⟨j, hj⟩ := h
      refine h' ⟨(u j, key a (u j)), List.mem_map.2 ⟨(j, key a (u j)), List.mem_filter.2 ⟨?_, by simpa using hj⟩, rfl⟩, rfl⟩
      rw [List.mem_dedup, ← List.count_pos_iff]
      omega
    · exact zero_le_one
    · exact le_rfl
  · rw [List.length_map]
    refine (filter_cost _ _ _).trans (le_trans (le_of_eq ?_) hl)
    rw [← List.sum_map_count_dedup_eq_length log]
    congr!

theorem find_none {k : Nat → List Byte} {pos : Fin M → List Byte → List Byte} {log : List (Fin M × List Byte)} {p e : List Byte}
    (h : ∀ j, k (u j) = p → pos j p ≠ e) : Ptr.find (ptrs u cc k pos log) p e = none := by
  rw [Ptr.find, List.findIdx?_eq_none_iff]
  intro q hq
  obtain ⟨j, rfl⟩ := (List.mem_ofFn' _ _).1 hq
  by_cases hp : k (u j) = p
  · have := h j hp
    simp [hp, this]
  · simp [hp]

theorem find_some {k : Nat → List Byte} {pos : Fin M → List Byte → List Byte} {log : List (Fin M × List Byte)} {e : List Byte}
    (hinj : ∀ p j j', pos j p = pos j' p → j = j') (j : Fin M) (he : pos j (k (u j)) = e) :
    Ptr.find (ptrs u cc k pos log) (k (u j)) e = some j.val := by
  rw [Ptr.find, List.findIdx?_eq_some_iff_getElem]
  refine ⟨by simp [ptrs], by simp [ptrs, he], ?_⟩
  intro i hi
  simp only [ptrs, List.getElem_ofFn, Bool.and_eq_true, beq_iff_eq, not_and]
  intro hk h
  rw [hk, ← he] at h
  have := hinj _ _ _ h
  simp only [← this] at hi
  omega

/-- The algorithm goes through all of a chain no more often than `Q / c` guesses are right, up to chance. -/
theorem walk (hc : 1 ≤ c) (hcc : ∀ j, c ≤ cc j) (hg : ∀ L : List (Nat × List Byte), L.length * c ≤ Q → guessed key L ≤ g)
    (b : Algorithm β) (q : Nat) (hb : b.Within q)
    (known : Table) (pos : Fin M → List Byte → List Byte) (hinj : ∀ p j j', pos j p = pos j' p → j = j') (log : List (Fin M × List Byte))
    (hl : log.length + q ≤ Q) :
    (avg fun a => open scoped Classical in if Caught u c (key a) log then (1 : ℚ) else done (ptrs u cc (key a) pos log) known b) ≤
      g + q * (M * ε) := by
  classical
  have hε := ε_nonneg
  have hM : (0 : ℚ) ≤ M * ε := by positivity
  induction b generalizing q known pos log with
  | result r =>
    simp only [done]
    have h1 := caught_le key u c Q g hc hg log (by omega)
    have h2 : (0 : ℚ) ≤ q * (M * ε) := by positivity
    refine le_trans (le_of_eq ?_) (h1.trans (by linarith))
    exact congrArg avg (funext fun a => by split_ifs <;> rfl)
  | eval p e next ih =>
    obtain ⟨hq, hb⟩ := hb
    have hq' : ((q : ℚ) * (M * ε)) = M * ε + ((q - 1 : Nat) : ℚ) * (M * ε) := by
      rw [Nat.cast_sub hq]
      push_cast
      ring
    cases hlk : known.lookup (p, e) with
    | some y =>
      have h1 := ih y (q - 1) (hb y) known pos hinj log (by omega)
      simp only [done, hlk]
      rw [hq']
      linarith
    | none =>
      by_cases hj : ∃ j, pos j p = e
      · obtain ⟨j, hj⟩ := hj
        let pos' (y : Digest) (i : Fin M) (r : List Byte) : List Byte := if i = j ∧ r = p then y.toList else pos i r
        have hposj (y : Digest) : pos' y j p = y.toList := if_pos ⟨rfl, rfl⟩
        have hposr (y : Digest) (i : Fin M) (r : List Byte) (h : ¬(i = j ∧ r = p)) : pos' y i r = pos i r := if_neg h
        have h1 (a : α) : (if Caught u c (key a) log then (1 : ℚ) else done (ptrs u cc (key a) pos log) known (.eval p e next)) ≤
            avg fun y : Digest => if Caught u c (key a) ((j, p) :: log) then (1 : ℚ)
              else done (ptrs u cc (key a) (pos' y) ((j, p) :: log)) (((p, e), y) :: known) (next y) := by
          by_cases hca : Caught u c (key a) ((j, p) :: log)
          · simp only [if_pos hca, avg_const]
            split_ifs
            · exact le_rfl
            · exact done_le_one _ _ _
          · have hca' : ¬Caught u c (key a) log := fun ⟨i, hi⟩ => hca ⟨i, hi.trans List.count_le_count_cons⟩
            simp only [if_neg hca, if_neg hca']
            by_cases hk : key a (u j) = p
            · have hf := find_some u cc (k := key a) (log := log) (e := e) hinj j (by rw [hk, hj])
              rw [hk] at hf
              have hleft : Ptr.left (ptrs u cc (key a) pos log) j.val = cc j - 1 - log.count (j, p) := by
                rw [Ptr.left, List.getD_eq_getElem?_getD, List.getElem?_eq_getElem (by simp [ptrs])]
                simp [ptrs, hk]
              have hlt : log.count (j, p) + 1 < cc j := by
                by_contra hge
                refine hca ⟨j, ?_⟩
                rw [hk, List.count_cons_self]
                have := hcc j
                omega
              simp only [done, hlk, hf, hleft]
              rw [if_neg (by omega)]
              refine le_of_eq (congrArg avg (funext fun y => ?_))
              congr 1
              apply List.ext_getElem
              · simp [ptrs]
              · intro i h1 h2
                have hi : i < M := by simpa [ptrs] using h2
                rw [List.getElem_set]
                simp only [ptrs, List.getElem_ofFn]
                split_ifs with hij
                · have : (⟨i, hi⟩ : Fin M) = j := Fin.ext hij.symm
                  rw [this, hk, hposj, List.count_cons_self]
                  congr 1
                · have hne : ¬(⟨i, hi⟩ : Fin M) = j := fun h => hij (by rw [← h])
                  rw [hposr y _ _ (fun h => hne h.1), List.count_cons_of_ne (fun h => hne (Prod.mk.inj h).1.symm)]
            · have hf : Ptr.find (ptrs u cc (key a) pos log) p e = none := find_none u cc fun i hi h => hk (by
                rw [← hinj p i j (h.trans hj.symm)]
                exact hi)
              simp only [done, hlk, hf]
              refine le_of_eq (congrArg avg (funext fun y => ?_))
              congr 1
              refine congrArg List.ofFn (funext fun i => ?_)
              have hne : ¬(i = j ∧ key a (u i) = p) := fun h => hk (h.1 ▸ h.2)
              rw [hposr y _ _ hne, List.count_cons_of_ne (fun h => hne ⟨(Prod.mk.inj h).1.symm, (Prod.mk.inj h).2.symm⟩)]
        refine (avg_mono h1).trans ?_
        rw [avg_comm]
        have hg0 : 0 ≤ g := le_trans (by
          rw [guessed]
          exact avg_nonneg fun a => by split_ifs <;> norm_num) (hg [] (by simp))
        have h2 (y : Digest) : (avg fun a => if Caught u c (key a) ((j, p) :: log) then (1 : ℚ)
              else done (ptrs u cc (key a) (pos' y) ((j, p) :: log)) (((p, e), y) :: known) (next y)) ≤
            (if y.toList ∈ List.ofFn fun i => pos i p then 1 else 0) + (g + ((q - 1 : Nat) : ℚ) * (M * ε)) := by
          split_ifs with hy
          · have h3 : (avg fun a => if Caught u c (key a) ((j, p) :: log) then (1 : ℚ)
              else done (ptrs u cc (key a) (pos' y) ((j, p) :: log)) (((p, e), y) :: known) (next y)) ≤ 1 :=
              avg_le_one fun a => by
                split_ifs
                · exact le_rfl
                · exact done_le_one _ _ _
            have : (0 : ℚ) ≤ ((q - 1 : Nat) : ℚ) * (M * ε) := by positivity
            linarith
          · rw [zero_add]
            refine ih y (q - 1) (hb y) _ (pos' y) ?_ _ (by simp only [List.length_cons]; omega)
            have hy' (i : Fin M) : pos i p ≠ y.toList := fun h => hy ((List.mem_ofFn' _ _).2 ⟨i, h⟩)
            intro r i i' h
            by_cases hr : r = p
            · subst hr
              by_cases h1 : i = j <;> by_cases h2 : i' = j
              · rw [h1, h2]
              · rw [h1, hposj, hposr y _ _ (fun h => h2 h.1)] at h
                exact absurd h.symm (hy' _)
              · rw [h2, hposj, hposr y _ _ (fun h => h1 h.1)] at h
                exact absurd h (hy' _)
              · rw [hposr y _ _ (fun h => h1 h.1), hposr y _ _ (fun h => h2 h.1)] at h
                exact hinj _ _ _ h
            · rw [hposr y _ _ (fun h => hr h.2), hposr y _ _ (fun h => hr h.2)] at h
              exact hinj _ _ _ h
        refine (avg_mono h2).trans ?_
        rw [avg_add, avg_const, hq']
        have h3 := avg_in (List.ofFn fun i => pos i p)
        rw [List.length_ofFn] at h3
        linarith
      · have hf (a : α) : Ptr.find (ptrs u cc (key a) pos log) p e = none := find_none u cc fun i _ h => hj ⟨i, h⟩
        have e1 : (fun a => if Caught u c (key a) log then (1 : ℚ) else done (ptrs u cc (key a) pos log) known (.eval p e next)) =
            fun a => avg fun y : Digest => if Caught u c (key a) log then (1 : ℚ)
              else done (ptrs u cc (key a) pos log) (((p, e), y) :: known) (next y) := by
          funext a
          split_ifs
          · rw [avg_const]
          · simp only [done, hlk, hf]
        rw [e1, avg_comm]
        refine (avg_mono fun y => ih y (q - 1) (hb y) (((p, e), y) :: known) pos hinj log (by omega)).trans ?_
        rw [avg_const, hq']
        linarith

/-- The blocks that are derived, for given passwords. -/
def tgts (k : Nat → List Byte) : List Tgt := List.ofFn fun j => ⟨k (u j), x j, cc j⟩

theorem hidden_chains (gs : List Tgt) (hc : ∀ g ∈ gs, 1 ≤ g.c) (Ts : List Digest) (h : Ts.length = gs.length) :
    hidden (chains gs Ts) + gs.length = total gs := by
  induction gs generalizing Ts with
  | nil => rfl
  | cons g gs ih =>
    cases Ts with
    | nil => simp at h
    | cons T Ts =>
      have h1 := ih (fun g hg => hc g (List.mem_cons_of_mem _ hg)) Ts (by simpa using h)
      have h2 := hc g List.mem_cons_self
      simp only [hidden, chains, total, List.zipWith_cons_cons, List.map_cons, List.sum_cons, List.length_cons] at h1 ⊢
      omega

theorem chains_ptrs (k : Nat → List Byte) (Ts : List Digest) (h : Ts.length = M) :
    (chains (tgts u x cc k) Ts).map Chain.ptr = ptrs u cc k (fun j _ => x j) [] := by
  apply List.ext_getElem
  · simp [chains, tgts, ptrs, h]
  · intro i h1 h2
    simp [chains, tgts, ptrs, Chain.ptr]

theorem flat (hx : Function.Injective x) (hc : 1 ≤ c) (hcc : ∀ j, c ≤ cc j)
    (hg : ∀ L : List (Nat × List Byte), L.length * c ≤ Q → guessed key L ≤ g) (n : Nat) (hn : (List.ofFn cc).sum = n)
    (good : α → β → Bool) (A : List Digest → Algorithm β) (hA : ∀ Ts, (A Ts).Within Q) :
    |(avg fun a => (serve (tgts u x cc (key a)) A).random (good a) []) - avg fun a => drawL M fun Ts => (A Ts).random (good a) []| ≤
      g + n * (2 * n + Q) * ε := by
  have hε := ε_nonneg
  have hlen (a : α) : (tgts u x cc (key a)).length = M := by simp [tgts]
  have htot (a : α) : total (tgts u x cc (key a)) = n := by
    rw [← hn, total, tgts, List.map_ofFn]
    rfl
  have hc' (a : α) : ∀ t ∈ tgts u x cc (key a), 1 ≤ t.c := by
    intro t ht
    obtain ⟨j, rfl⟩ := (List.mem_ofFn' _ _).1 ht
    exact hc.trans (hcc j)
  have hMn : M ≤ n := by
    have := hidden_chains (tgts u x cc (key (Classical.arbitrary α))) (hc' _) (List.replicate M (List.Vector.replicate 32 0)) (by simp [hlen])
    rw [htot, hlen] at this
    omega
  have h1 (a : α) : |(serve (tgts u x cc (key a)) A).random (good a) [] - drawL M fun Ts => (A Ts).random (good a) []| ≤
      (n * ((n + M : Nat) * ε) + Q * ((n - M : Nat) * ε)) +
        drawL M fun Ts => open scoped Classical in
          if Caught u c (key a) [] then (1 : ℚ) else done (ptrs u cc (key a) (fun j _ => x j) []) [] (A Ts) := by
    have h2 := serve_close (good := good a) (tgts u x cc (key a)) n M [] (by rw [hlen]) (by
      rw [tgts, List.map_ofFn, List.nodup_ofFn]
      intro j j' h
      exact hx (Prod.mk.inj h).2) (by simp) (by simp [htot]) A
    rw [freeAll_eq _ (hc' a), htot, hlen] at h2
    simp only [List.nil_append] at h2
    have h3 := drawL_close (n := M) (f := fun Ts => hideAll (chains (tgts u x cc (key a)) Ts) fun t => (A Ts).random (good a) t)
      (g := fun Ts => (A Ts).random (good a) [])
      (fun Ts => (open scoped Classical in
          if Caught u c (key a) [] then (1 : ℚ) else done (ptrs u cc (key a) (fun j _ => x j) []) [] (A Ts)) + Q * ((n - M : Nat) * ε))
      fun Ts hTs => by
        have hh := hidden_chains (tgts u x cc (key a)) (hc' a) Ts (by rw [hlen, hTs])
        rw [htot, hlen] at hh
        have := hidden_close (good := good a) (A Ts) Q (n - M) (hA Ts) (chains (tgts u x cc (key a)) Ts) (by omega) []
        rw [chains_ptrs u x cc (key a) Ts hTs] at this
        refine this.trans (add_le_add ?_ le_rfl)
        split_ifs
        · exact done_le_one _ _ _
        · exact le_rfl
    rw [drawL_add, drawL_const] at h3
    refine (abs_sub_le _ _ _).trans ((add_le_add h2 h3).trans ?_)
    linarith
  refine (avg_close _ h1).trans ?_
  rw [avg_add, avg_const, ← drawL_avg]
  have h4 : (drawL M fun Ts => avg fun a => open scoped Classical in
      if Caught u c (key a) [] then (1 : ℚ) else done (ptrs u cc (key a) (fun j _ => x j) []) [] (A Ts)) ≤ g + Q * (M * ε) := by
    refine (drawL_mono fun Ts _ => walk key u cc c Q g hc hcc hg (A Ts) Q (hA Ts) [] (fun j _ => x j) (fun _ _ _ h => hx h) [] (by simp)).trans ?_
    rw [drawL_const]
  have h5 : (n : ℚ) * ((n + M : Nat) * ε) + Q * ((n - M : Nat) * ε) + Q * (M * ε) ≤ n * (2 * n + Q) * ε := by
    rw [Nat.cast_sub hMn]
    have h6 : (n : ℚ) * ((n + M : Nat) * ε) ≤ n * ((n + n : Nat) * ε) :=
      mul_le_mul_of_nonneg_left (mul_le_mul_of_nonneg_right (Nat.cast_le.2 (by omega)) hε) (Nat.cast_nonneg _)
    push_cast at h6 ⊢
    linarith
  linarith

end

/-! ### The keys of several users -/

/-- The blocks of the keys: the number of the user, what is iterated first, and how often. -/
def base : Nat → List Request → List (Nat × List Byte × Nat)
  | _, [] => []
  | u, r :: rs => (List.range (count r.len)).map (fun i => (u, r.salt ++ beBytes 4 (i + 1), r.c)) ++ base (u + 1) rs

def toTgt (key : Nat → List Byte) (b : Nat × List Byte × Nat) : Tgt := ⟨key b.1, b.2.1, b.2.2⟩

/-- The keys, made from the blocks. -/
def assemble : List Request → List Digest → List (List Byte)
  | [], _ => []
  | r :: rs, Ts => (((Ts.take (count r.len)).flatMap (·.toList)).take r.len) :: assemble rs (Ts.drop (count r.len))

theorem serve_append (gs gs' : List Tgt) (k : List Digest → Algorithm β) :
    serve (gs ++ gs') k = serve gs fun Ts => serve gs' fun Ts' => k (Ts ++ Ts') := by
  induction gs generalizing k with
  | nil => rfl
  | cons g gs ih => simp only [List.cons_append, serve, ih]

/-- The continuations matter only for as many digests as there are. -/
theorem serve_congr (gs : List Tgt) (k k' : List Digest → Algorithm β) (h : ∀ Ts, Ts.length = gs.length → k Ts = k' Ts) :
    serve gs k = serve gs k' := by
  induction gs generalizing k k' with
  | nil => exact h _ rfl
  | cons g gs ih =>
    rw [serve, serve]
    congr 1
    funext T
    exact ih _ _ fun Ts hTs => h _ (by rw [List.length_cons, hTs, List.length_cons])

theorem blocks_eq (key salt : List Byte) (c i l : Nat) (k : List Byte → Algorithm β) :
    blocks key salt c i l k = serve ((List.range l).map fun j => ⟨key, salt ++ beBytes 4 (i + j + 1), c⟩) fun Ts => k (Ts.flatMap (·.toList)) := by
  induction l generalizing i k with
  | zero => rfl
  | succ l ih =>
    rw [blocks, List.range_succ_eq_map, List.map_cons, List.map_map, serve]
    simp only [ih, Nat.add_zero, List.flatMap_cons]
    have e : (fun j => (⟨key, salt ++ beBytes 4 (i + 1 + j + 1), c⟩ : Tgt)) =
        (fun j => (⟨key, salt ++ beBytes 4 (i + j + 1), c⟩ : Tgt)) ∘ Nat.succ := by
      funext j
      simp only [Function.comp_apply, Nat.succ_eq_add_one, Nat.add_comm, Nat.add_left_comm]
    rw [e]

theorem derive_eq (key : Nat → List Byte) (u : Nat) (rs : List Request) (k : List (List Byte) → Algorithm β) :
    derive key u rs k = serve ((base u rs).map (toTgt key)) fun Ts => k (assemble rs Ts) := by
  induction rs generalizing u k with
  | nil => rfl
  | cons r rs ih =>
    rw [derive, base, List.map_append, serve_append, blocks_eq]
    simp only [ih, List.map_map, Nat.zero_add]
    refine serve_congr _ _ _ fun Ts hTs => ?_
    simp only [List.length_map, List.length_range] at hTs
    refine serve_congr _ _ _ fun Ts' _ => ?_
    rw [assemble, List.take_left' hTs, List.drop_left' hTs]

theorem drawL_append (n m : Nat) (f : List Digest → ℚ) : drawL (n + m) f = drawL n fun Ts => drawL m fun Ts' => f (Ts ++ Ts') := by
  induction n generalizing f with
  | zero => rw [Nat.zero_add]; rfl
  | succ n ih =>
    rw [show n + 1 + m = n + m + 1 by omega, drawL, drawL]
    exact congrArg avg (funext fun T => ih _)

theorem drawL_congr {n : Nat} {f g : List Digest → ℚ} (h : ∀ t, t.length = n → f t = g t) : drawL n f = drawL n g :=
  le_antisymm (drawL_mono fun t ht => le_of_eq (h t ht)) (drawL_mono fun t ht => le_of_eq (h t ht).symm)

theorem drawL_draw (n : Nat) (f : List Byte → ℚ) : (drawL n fun Ts => f (Ts.flatMap (·.toList))) = KeyGames.draw n f := by
  induction n generalizing f with
  | zero => rfl
  | succ n ih =>
    rw [drawL, KeyGames.draw]
    refine congrArg avg (funext fun T => ?_)
    exact ih fun rest => f (T.toList ++ rest)

theorem uniform_eq (u : Nat) (rs : List Request) (f : List (List Byte) → ℚ) :
    uniform rs f = drawL (base u rs).length fun Ts => f (assemble rs Ts) := by
  induction rs generalizing u f with
  | nil => rfl
  | cons r rs ih =>
    rw [uniform, base, List.length_append, drawL_append, List.length_map, List.length_range, ← draw_take r.len fun t =>
      uniform rs fun keys => f (t :: keys), ← drawL_draw]
    refine drawL_congr fun Ts hTs => ?_
    rw [ih (u + 1)]
    refine drawL_congr fun Ts' _ => ?_
    rw [assemble, List.take_left' hTs, List.drop_left' hTs]

theorem base_mem (u : Nat) (rs : List Request) (b : Nat × List Byte × Nat) (h : b ∈ base u rs) :
    ∃ r ∈ rs, b.2.2 = r.c ∧ ∃ i, i < count r.len ∧ b.2.1 = r.salt ++ beBytes 4 (i + 1) := by
  induction rs generalizing u with
  | nil => simp [base] at h
  | cons r rs ih =>
    rw [base, List.mem_append] at h
    rcases h with h | h
    · obtain ⟨i, hi, rfl⟩ := List.mem_map.1 h
      exact ⟨r, List.mem_cons_self, rfl, i, by simpa using hi, rfl⟩
    · obtain ⟨r', h1, h2⟩ := ih _ h
      exact ⟨r', List.mem_cons_of_mem _ h1, h2⟩

theorem base_nodup (u : Nat) (rs : List Request) (hs : (rs.map (·.salt)).Nodup) (hl : ∀ r ∈ rs, count r.len < 2 ^ 32) :
    ((base u rs).map (·.2.1)).Nodup := by
  induction rs generalizing u with
  | nil => exact List.nodup_nil
  | cons r rs ih =>
    rw [List.map_cons, List.nodup_cons] at hs
    rw [base, List.map_append, List.nodup_append]
    refine ⟨?_, ih (u + 1) hs.2 fun r hr => hl r (List.mem_cons_of_mem _ hr), ?_⟩
    · rw [List.map_map]
      refine List.Nodup.map_on ?_ List.nodup_range
      intro i hi j hj h
      have h0 := hl r List.mem_cons_self
      rw [List.mem_range] at hi hj
      have := beBytes4_inj (by omega) (by omega) (List.append_cancel_left h)
      omega
    · intro a ha b hb hab
      subst hab
      obtain ⟨b1, hb1, e1⟩ := List.mem_map.1 ha
      obtain ⟨i, -, rfl⟩ := List.mem_map.1 hb1
      obtain ⟨b2, hb2, e2⟩ := List.mem_map.1 hb
      obtain ⟨r', hr', -, j, -, e3⟩ := base_mem _ _ _ hb2
      rw [← e1, e3] at e2
      have := (List.append_inj' e2 (by simp [beBytes_length])).1
      exact hs.1 (List.mem_map.2 ⟨r', hr', this⟩)

theorem base_total (u : Nat) (rs : List Request) : ((base u rs).map (·.2.2)).sum = iterations rs := by
  induction rs generalizing u with
  | nil => rfl
  | cons r rs ih =>
    rw [base, List.map_append, List.sum_append, ih, List.map_map]
    simp only [iterations, List.map_cons, List.sum_cons]
    congr 1
    have : (List.range (count r.len)).map ((fun b : Nat × List Byte × Nat => b.2.2) ∘ fun i => (u, r.salt ++ beBytes 4 (i + 1), r.c)) =
        List.replicate (count r.len) r.c := by
      rw [List.eq_replicate_iff]
      refine ⟨by simp, fun b hb => ?_⟩
      obtain ⟨i, -, rfl⟩ := List.mem_map.1 hb
      rfl
    rw [this, List.sum_replicate_nat, Nat.mul_comm]

theorem close {α : Type} [Fintype α] [Nonempty α] (key : α → Nat → List Byte) (rs : List Request) (hs : (rs.map (·.salt)).Nodup)
    (hl : ∀ r ∈ rs, count r.len < 2 ^ 32) (c Q : Nat) (hc : 1 ≤ c) (hcc : ∀ r ∈ rs, c ≤ r.c) (g : ℚ)
    (hg : ∀ L : List (Nat × List Byte), L.length * c ≤ Q → guessed key L ≤ g) (good : α → β → Bool)
    (A : List (List Byte) → Algorithm β) (hA : ∀ keys, (A keys).Within Q) :
    |(avg fun a => real rs (key a) (good a) A) - avg fun a => ideal rs (good a) A| ≤
      g + iterations rs * (2 * iterations rs + Q) / 2 ^ 256 := by
  have hb : ∀ b ∈ base 0 rs, c ≤ b.2.2 := by
    intro b hb
    obtain ⟨r, hr, e, -⟩ := base_mem _ _ _ hb
    rw [e]
    exact hcc r hr
  have h := flat key (fun j : Fin (base 0 rs).length => ((base 0 rs).get j).1) (fun j => ((base 0 rs).get j).2.1)
    (fun j => ((base 0 rs).get j).2.2) c Q g (by
      intro i j hij
      have := base_nodup 0 rs hs hl
      rw [List.nodup_iff_injective_get] at this
      have h2 := @this (i.cast (by simp)) (j.cast (by simp)) (by simpa using hij)
      simpa using h2) hc (fun j => hb _ (List.get_mem _ _)) hg (iterations rs) (by
      rw [← base_total 0 rs]
      conv_rhs => rw [← List.ofFn_get (base 0 rs), List.map_ofFn]
      rfl) good (fun Ts => A (assemble rs Ts)) fun Ts => hA _
  have e (a : α) : tgts (fun j : Fin (base 0 rs).length => ((base 0 rs).get j).1) (fun j => ((base 0 rs).get j).2.1)
      (fun j => ((base 0 rs).get j).2.2) (key a) = (base 0 rs).map (toTgt (key a)) := by
    rw [tgts]
    conv_rhs => rw [← List.ofFn_get (base 0 rs), List.map_ofFn]
    rfl
  simp only [e] at h
  simp only [real, ideal, derive_eq, uniform_eq 0]
  rw [ε_eq, mul_one_div] at h
  exact h

/-! ### Attackers that try guesses -/

/-- The function has the values in the table. -/
def Consistent (F : List Byte → List Byte → Digest) (t : Table) : Prop := ∀ q y, t.lookup q = some y → F q.1 q.2 = y

/-- What happens with every function happens with a random one. -/
theorem random_of_run (a : Algorithm β) (t : Table) (h : ∀ F, Consistent F t → good (a.run F) = true) : a.random good t = 1 := by
  induction a generalizing t with
  | result b =>
    have := h (fun p x => (t.lookup (p, x)).getD (List.Vector.replicate 32 0)) fun q y e => by simp [e]
    rw [Algorithm.random]
    exact if_pos this
  | eval p x next ih =>
    rw [Algorithm.random]
    split
    · rename_i y hy
      refine ih y t fun F hF => ?_
      have := h F hF
      rwa [Algorithm.run, hF _ _ hy] at this
    · rename_i hn
      have (y : Digest) : (next y).random good (((p, x), y) :: t) = 1 := by
        refine ih y _ fun F hF => ?_
        have h1 := h F fun q z e => by
          refine hF q z ?_
          rw [List.lookup_cons]
          have : (q == (p, x)) = false := by
            simp only [beq_eq_false_iff_ne]
            rintro rfl
            rw [hn] at e
            cases e
          rw [this]
          exact e
        rwa [Algorithm.run, hF (p, x) y (by rw [List.lookup_cons_self])] at h1
      simp only [this, avg_const]

theorem run_iterate_k (F : List Byte → List Byte → Digest) (p : List Byte) (c : Nat) (x : List Byte) (acc : Digest) (k : Digest → Algorithm β) :
    (iterate p c x acc k).run F = (k ((iterate p c x acc .result).run F)).run F := by
  induction c generalizing x acc with
  | zero => rfl
  | succ c ih => exact ih _ _

theorem run_blocks_k (F : List Byte → List Byte → Digest) (p salt : List Byte) (c i l : Nat) (k : List Byte → Algorithm β) :
    (blocks p salt c i l k).run F = (k ((blocks p salt c i l .result).run F)).run F := by
  induction l generalizing i β k with
  | zero => rfl
  | succ l ih =>
    rw [blocks, run_iterate_k, ih]
    have e : (blocks p salt c i (l + 1) Algorithm.result).run F =
        ((iterate p c (salt ++ beBytes 4 (i + 1)) (List.Vector.replicate 32 0) Algorithm.result).run F).toList ++
          (blocks p salt c (i + 1) l Algorithm.result).run F := by
      rw [blocks, run_iterate_k, ih]
      rfl
    rw [e]

/-- The key that is derived with the function `F`. -/
def keyOf (F : List Byte → List Byte → Digest) (p : List Byte) (r : Request) : List Byte :=
  ((blocks p r.salt r.c 0 (count r.len) .result).run F).take r.len

theorem run_derive (F : List Byte → List Byte → Digest) (key : Nat → List Byte) (u : Nat) (rs : List Request)
    (k : List (List Byte) → Algorithm β) :
    (derive key u rs k).run F = (k (rs.mapIdx fun i r => keyOf F (key (u + i)) r)).run F := by
  induction rs generalizing u k with
  | nil => rfl
  | cons r rs ih =>
    rw [derive, run_blocks_k, ih, List.mapIdx_cons]
    simp only [Nat.add_zero, Nat.add_assoc, Nat.add_comm 1]
    rfl

theorem attempt_run (F : List Byte → List Byte → Digest) (key : Nat → List Byte) (rs : List Request) (L : List (Nat × List Byte))
    (hL : ∀ w ∈ L, w.1 < rs.length) (h : ∃ w ∈ L, key w.1 = w.2) (keys : List (List Byte)) (hk : keys = rs.mapIdx fun i r => keyOf F (key i) r) :
    (attempt rs L keys).run F = true := by
  induction L with
  | nil => simp at h
  | cons w L ih =>
    obtain ⟨u, b⟩ := w
    rw [attempt, run_blocks_k]
    have hu := hL (u, b) List.mem_cons_self
    split_ifs with hif
    · rfl
    · refine ih (fun w hw => hL w (List.mem_cons_of_mem _ hw)) ?_
      obtain ⟨w, hw, e⟩ := h
      rcases List.mem_cons.1 hw with rfl | hw
      · exfalso
        apply hif
        subst hk
        dsimp only at hu e ⊢
        rw [List.getElem?_mapIdx, List.getElem?_eq_getElem hu, List.getD_eq_getElem?_getD, List.getElem?_eq_getElem hu, ← e]
        rfl
      · exact ⟨w, hw, e⟩

theorem iterate_within (p : List Byte) (n c : Nat) (x : List Byte) (acc : Digest) (k : Digest → Algorithm β) (hk : ∀ T, (k T).Within n) :
    (iterate p c x acc k).Within (c + n) := by
  induction c generalizing x acc with
  | zero => rw [Nat.zero_add]; exact hk acc
  | succ c ih => exact ⟨by omega, fun y => by rw [show c + 1 + n - 1 = c + n by omega]; exact ih _ _⟩

theorem blocks_within (p salt : List Byte) (c n i l : Nat) (k : List Byte → Algorithm β) (hk : ∀ t, (k t).Within n) :
    (blocks p salt c i l k).Within (l * c + n) := by
  induction l generalizing i k with
  | zero => rw [Nat.zero_mul, Nat.zero_add]; exact hk []
  | succ l ih =>
    rw [show (l + 1) * c + n = c + (l * c + n) by rw [Nat.add_mul]; omega]
    exact iterate_within _ _ _ _ _ _ fun T => ih _ _ fun t => hk _

theorem attempt_within (rs : List Request) (c : Nat) (hr : ∀ r ∈ rs, r.c = c ∧ r.len = 32) (L : List (Nat × List Byte))
    (hL : ∀ w ∈ L, w.1 < rs.length) (keys : List (List Byte)) : (attempt rs L keys).Within (L.length * c) := by
  induction L with
  | nil => trivial
  | cons w L ih =>
    obtain ⟨u, b⟩ := w
    have hu := hL (u, b) List.mem_cons_self
    obtain ⟨h1, h2⟩ := hr _ (List.getElem_mem hu)
    have e : rs.getD u ⟨[], 1, 0⟩ = rs[u] := by rw [List.getD_eq_getElem?_getD, List.getElem?_eq_getElem hu]; rfl
    rw [attempt, e, List.length_cons, show (L.length + 1) * c = 1 * c + L.length * c by rw [Nat.add_mul]; omega]
    simp only [h1, h2]
    refine blocks_within b _ c (L.length * c) 0 1 _ fun t => ?_
    split_ifs
    · trivial
    · exact ih fun w hw => hL w (List.mem_cons_of_mem _ hw)

theorem iterate_drawL (p : List Byte) (n c : Nat) (x : List Byte) (acc : Digest) (k : List Digest → Digest → Algorithm β) (B : ℚ)
    (h : ∀ T t, (drawL n fun Ts => (k Ts T).random good t) ≤ B) (t : Table) :
    (drawL n fun Ts => (iterate p c x acc (k Ts)).random good t) ≤ B := by
  induction c generalizing x acc t with
  | zero => exact h _ _
  | succ c ih =>
    simp only [iterate, Algorithm.random]
    split
    · exact ih _ _ _
    · rw [drawL_avg]
      refine (avg_mono fun y => ih _ _ _).trans ?_
      rw [avg_const]

theorem blocks_drawL (p salt : List Byte) (n c i l : Nat) (k : List Digest → List Byte → Algorithm β) (B : ℚ)
    (h : ∀ s t, (drawL n fun Ts => (k Ts s).random good t) ≤ B) (t : Table) :
    (drawL n fun Ts => (blocks p salt c i l (k Ts)).random good t) ≤ B := by
  induction l generalizing i k t with
  | zero => exact h _ _
  | succ l ih =>
    simp only [blocks]
    exact iterate_drawL p n c _ _ (fun Ts T => blocks p salt c (i + 1) l fun rest => k Ts (T.toList ++ rest)) B
      (fun T t => ih _ _ (fun s t => h _ t) t) t

theorem uniform_mono (rs : List Request) {f g : List (List Byte) → ℚ} (h : ∀ t, f t ≤ g t) : uniform rs f ≤ uniform rs g := by
  rw [uniform_eq 0, uniform_eq 0]
  exact drawL_mono fun t _ => h _

theorem uniform_add (rs : List Request) (f g : List (List Byte) → ℚ) : (uniform rs fun t => f t + g t) = uniform rs f + uniform rs g := by
  simp only [uniform_eq 0, drawL_add]

theorem uniform_const (rs : List Request) (c : ℚ) : (uniform rs fun _ => c) = c := by
  simp only [uniform_eq 0, drawL_const]

theorem uniform_avg {α : Type} [Fintype α] (rs : List Request) (f : α → List (List Byte) → ℚ) :
    (uniform rs fun t => avg fun y => f y t) = avg fun y => uniform rs (f y) := by
  simp only [uniform_eq 0, drawL_avg]

theorem avg_one (s : List Byte) : (avg fun x : List.Vector Byte 32 => if x.toList = s then (1 : ℚ) else 0) ≤ ε := by
  have := avg_in [s]
  simpa using this

theorem uniform_hit (rs : List Request) (hr : ∀ r ∈ rs, r.len = 32) (u : Nat) (s : List Byte) :
    (uniform rs fun keys => if keys[u]? = some s then (1 : ℚ) else 0) ≤ ε := by
  induction rs generalizing u with
  | nil => simpa [uniform] using ε_nonneg
  | cons r rs ih =>
    obtain ⟨salt, c, len⟩ := r
    obtain rfl : len = 32 := hr _ List.mem_cons_self
    rw [uniform]
    cases u with
    | zero =>
      simp only [List.getElem?_cons_zero, Option.some.injEq, uniform_const]
      exact avg_one s
    | succ u =>
      simp only [List.getElem?_cons_succ]
      refine (avg_mono fun _ => ih (fun r hr' => hr r (List.mem_cons_of_mem _ hr')) u).trans ?_
      rw [avg_const]

theorem uniform_among (rs : List Request) (hr : ∀ r ∈ rs, r.len = 32) (s : List Byte) :
    (uniform rs fun keys => if s ∈ keys then (1 : ℚ) else 0) ≤ rs.length * ε := by
  induction rs with
  | nil => simp [uniform]
  | cons r rs ih =>
    obtain ⟨salt, c, len⟩ := r
    obtain rfl : len = 32 := hr _ List.mem_cons_self
    have h1 := ih fun r hr' => hr r (List.mem_cons_of_mem _ hr')
    rw [uniform]
    have h2 (x : List.Vector Byte 32) : (uniform rs fun keys => if s ∈ x.toList :: keys then (1 : ℚ) else 0) ≤
        (if x.toList = s then (1 : ℚ) else 0) + rs.length * ε := by
      refine le_trans ?_ (add_le_add le_rfl h1)
      rw [← uniform_const rs (if x.toList = s then (1 : ℚ) else 0), ← uniform_add]
      refine uniform_mono rs fun keys => ?_
      simp only [List.mem_cons]
      by_cases h3 : x.toList = s <;> by_cases h4 : s ∈ keys <;> simp only [h3, h4, eq_comm (a := s), or_true, or_false, if_true, if_false] <;> norm_num
    refine (avg_mono h2).trans ?_
    rw [avg_add, avg_const]
    have h3 := avg_one s
    push_cast [List.length_cons]
    linarith

theorem attempt_ideal (rs : List Request) (hr : ∀ r ∈ rs, r.len = 32) (L : List (Nat × List Byte)) (t : Table) :
    (uniform rs fun keys => (attempt rs L keys).random id t) ≤ L.length * ε := by
  induction L generalizing t with
  | nil => simp [attempt, Algorithm.random, uniform_const]
  | cons w L ih =>
    obtain ⟨u, b⟩ := w
    simp only [attempt]
    rw [uniform_eq 0]
    refine blocks_drawL b _ _ _ 0 _ (fun Ts s => if (assemble rs Ts)[u]? = some (s.take (rs.getD u ⟨[], 1, 0⟩).len) then .result true
      else attempt rs L (assemble rs Ts)) _ (fun s t => ?_) t
    rw [← uniform_eq 0 rs fun keys => (if keys[u]? = some (s.take (rs.getD u ⟨[], 1, 0⟩).len) then Algorithm.result true
      else attempt rs L keys).random id t]
    refine le_trans (uniform_mono rs (g := fun keys => (if keys[u]? = some (s.take (rs.getD u ⟨[], 1, 0⟩).len) then (1 : ℚ) else 0) +
      (attempt rs L keys).random id t) fun keys => ?_) ?_
    · split_ifs
      · refine (random_le_one _ _).trans ?_
        have := random_nonneg (good := id) (attempt rs L keys) t
        linarith
      · rw [zero_add]
    · rw [uniform_add]
      have h1 := uniform_hit rs hr u (s.take (rs.getD u ⟨[], 1, 0⟩).len)
      have h2 := ih t
      push_cast [List.length_cons]
      linarith

theorem sweep_ideal (rs : List Request) (hr : ∀ r ∈ rs, r.len = 32) (r : Request) (b : List Byte) (t : Table) :
    (uniform rs fun keys => (sweep r b keys).random id t) ≤ rs.length * ε := by
  simp only [sweep]
  rw [uniform_eq 0]
  refine blocks_drawL b _ _ _ 0 _ (fun Ts s => .result (decide (s.take r.len ∈ assemble rs Ts))) _ (fun s t => ?_) t
  rw [← uniform_eq 0 rs fun keys => (Algorithm.result (decide (s.take r.len ∈ keys))).random id t]
  simpa [Algorithm.random] using uniform_among rs hr (s.take r.len)

end Spec.GuessGames
