import Mathlib.Data.List.Forall2
import Verif.Source.Leak

/-!
A check of function bodies which ensures that what an observer sees (`Leak.lean`) does not depend on data.

What is public about a value is everything but the contents of its `u8`, `u32` and `u64` integers: the lengths of its
sequences, its `usize` integers, its booleans, its variants. `Val.mask` blanks the rest.

The check gives every variable of a function one of three labels. `check_sound` shows that a checked expression,
evaluated twice with variables that agree as far as their labels say, shows the same both times and has outcomes that agree.
-/

set_option linter.constructorNameAsVariable false

namespace Verif.Source
open Verif

mutual
/-- The public part of a value. -/
def Val.mask : Val → Val
  | .unit => .unit
  | .bool b => .bool b
  | .u8 _ => .u8 0
  | .u32 _ => .u32 0
  | .u64 _ => .u64 0
  | .usize n => .usize n
  | .i32 n => .i32 n
  | .str s => .str s
  | .seq xs => .seq (Val.masks xs)
  | .tup xs => .tup (Val.masks xs)
  | .struct s fs => .struct s (Val.maskFields fs)
  | .enum c xs => .enum c (Val.masks xs)
def Val.masks : List Val → List Val
  | [] => []
  | v :: vs => v.mask :: Val.masks vs
def Val.maskFields : List (Id × Val) → List (Id × Val)
  | [] => []
  | (f, v) :: fs => (f, v.mask) :: Val.maskFields fs
end

/-- The values have the same public part. -/
def Low (v w : Val) : Prop := v.mask = w.mask

def Lows (vs ws : List Val) : Prop := Val.masks vs = Val.masks ws

theorem Val.masks_eq (xs : List Val) : Val.masks xs = xs.map Val.mask := by
  induction xs with
  | nil => rfl
  | cons x xs ih => simp [Val.masks, ih]

theorem Lows.length {vs ws : List Val} (h : Lows vs ws) : vs.length = ws.length := by
  have := congrArg List.length h
  simpa [Val.masks_eq] using this

/-- What is known about a variable in two evaluations. -/
inductive Lab where
  /-- the same number of type `usize` -/
  | num
  /-- the same value -/
  | pub
  /-- the same public part -/
  | any
deriving DecidableEq, Repr

def LowL : Lab → Val → Val → Prop
  | .num, v, w => v = w ∧ ∃ n, v = .usize n
  | .pub, v, w => v = w
  | .any, v, w => Low v w

def Lab.leq : Lab → Lab → Bool
  | .num, _ => true
  | .pub, .num => false
  | .pub, _ => true
  | .any, .any => true
  | .any, _ => false

theorem LowL.mono {l l' : Lab} {v w : Val} (h : LowL l v w) (hl : l.leq l' = true) : LowL l' v w := by
  cases l <;> cases l' <;> simp [Lab.leq] at hl <;> simp only [LowL, Low] at * <;> first | exact h | exact h.1 | rw [h.1] | rw [h]

theorem LowL.low {l : Lab} {v w : Val} (h : LowL l v w) : Low v w := by
  cases l <;> simp only [LowL, Low] at * <;> simp_all

abbrev Gam := Id → Lab

/-- The variables agree as far as their labels say. -/
def LowEnv (Γ : Gam) : Env → Env → Prop := List.Forall₂ fun a b => a.1 = b.1 ∧ LowL (Γ a.1) a.2 b.2

/-- Both steps fail alike, or have related results. -/
def RelR {α : Type} (P : α → α → Prop) : R α → R α → Prop
  | .ok a, .ok b => P a b
  | .error e, .error f => e = f
  | _, _ => False

def RelC {α : Type} (Γ : Gam) (P : α → α → Prop) : Ctl α × Env → Ctl α × Env → Prop
  | (.val a, e), (.val b, f) => P a b ∧ LowEnv Γ e f
  | (.ret v, e), (.ret w, f) => Low v w ∧ LowEnv Γ e f
  | (.cont, e), (.cont, f) => LowEnv Γ e f
  | _, _ => False

def RelE {α : Type} (Γ : Gam) (P : α → α → Prop) (x y : E α) : Prop :=
  ∀ e f, LowEnv Γ e f → RelR (RelC Γ P) (x e) (y f)

/-- The same is seen, and the outcomes are related. -/
def Rel {α : Type} (Γ : Gam) (P : α → α → Prop) (x y : ET α) : Prop :=
  ∀ e f, LowEnv Γ e f → (x e).1 = (y f).1 ∧ RelR (RelC Γ P) (x e).2 (y f).2

/-! ### Values -/

theorem RelR.bind {α β : Type} {P : α → α → Prop} {Q : β → β → Prop} {x y : R α} {f g : α → R β} (h : RelR P x y)
    (hf : ∀ a b, P a b → RelR Q (f a) (g b)) : RelR Q (x >>= f) (y >>= g) := by
  rcases x with e | a <;> rcases y with e' | b
  · exact h
  · exact h.elim
  · exact h.elim
  · exact hf a b h

theorem RelR.map {α β : Type} {P : α → α → Prop} {Q : β → β → Prop} {x y : R α} {f g : α → β} (h : RelR P x y)
    (hf : ∀ a b, P a b → Q (f a) (g b)) : RelR Q (x.map f) (y.map g) := by
  rcases x with e | a <;> rcases y with e' | b
  · exact h
  · exact h.elim
  · exact h.elim
  · exact hf a b h

theorem RelR.refl {α : Type} {P : α → α → Prop} (x : R α) (h : ∀ a, P a a) : RelR P x x := by
  rcases x with e | a
  · rfl
  · exact h a

theorem RelR.mono {α : Type} {P Q : α → α → Prop} {x y : R α} (h : RelR P x y) (hf : ∀ a b, P a b → Q a b) : RelR Q x y := by
  rcases x with e | a <;> rcases y with e' | b
  · exact h
  · exact h.elim
  · exact h.elim
  · exact hf a b h

theorem Low.refl (v : Val) : Low v v := rfl

theorem Lows.forall₂ {vs ws : List Val} : Lows vs ws ↔ List.Forall₂ Low vs ws := by
  induction vs generalizing ws with
  | nil => cases ws <;> simp [Lows, Val.masks]
  | cons v vs ih =>
    cases ws with
    | nil => simp [Lows, Val.masks]
    | cons w ws =>
      have := @ih ws
      simp only [Lows] at this
      simp [Lows, Val.masks, Low, this]

theorem lowFields_forall₂ {fs gs : List (Id × Val)} :
    Val.maskFields fs = Val.maskFields gs ↔ List.Forall₂ (fun a b => a.1 = b.1 ∧ Low a.2 b.2) fs gs := by
  induction fs generalizing gs with
  | nil => cases gs <;> simp [Val.maskFields]
  | cons v vs ih =>
    cases gs with
    | nil => simp [Val.maskFields]
    | cons w ws => simp [Val.maskFields, Low, @ih ws]

/-- Equal sequences, up to what is public. -/
theorem Low.seq {xs ys : List Val} (h : List.Forall₂ Low xs ys) : Low (.seq xs) (.seq ys) := by
  have : Val.masks xs = Val.masks ys := Lows.forall₂.2 h
  simpa [Low, Val.mask] using this

/-- Splits on the form of two values with the same public part. -/
theorem Low.seq_iff {xs : List Val} {w : Val} : Low (.seq xs) w ↔ ∃ ys, w = .seq ys ∧ List.Forall₂ Low xs ys := by
  constructor
  · intro h
    cases w <;> simp [Low, Val.mask] at h
    exact ⟨_, rfl, Lows.forall₂.1 h⟩
  · rintro ⟨ys, rfl, h⟩
    exact .seq h

theorem getVar_low {fs gs : Env} {Q : Id → Val → Val → Prop} (h : List.Forall₂ (fun a b => a.1 = b.1 ∧ Q a.1 a.2 b.2) fs gs)
    (x : Id) : RelR (Q x) (getVar x fs) (getVar x gs) := by
  induction h with
  | nil => rfl
  | cons h _ ih =>
    rename_i a b l l' _
    obtain ⟨y, v⟩ := a
    obtain ⟨z, w⟩ := b
    obtain ⟨rfl, hq⟩ := h
    simp only [getVar]
    split
    · rename_i e; subst e; exact hq
    · exact ih

theorem setVar_low {fs gs : Env} {Q : Id → Val → Val → Prop} (h : List.Forall₂ (fun a b => a.1 = b.1 ∧ Q a.1 a.2 b.2) fs gs)
    {x : Id} {v w : Val} (hv : Q x v w) :
    RelR (List.Forall₂ (fun a b => a.1 = b.1 ∧ Q a.1 a.2 b.2)) (setVar x v fs) (setVar x w gs) := by
  induction h with
  | nil => rfl
  | cons h ht ih =>
    rename_i a b l l'
    obtain ⟨y, u⟩ := a
    obtain ⟨z, u'⟩ := b
    obtain ⟨rfl, hq⟩ := h
    simp only [setVar]
    split
    · rename_i e; subst e; exact .cons ⟨rfl, hv⟩ ht
    · exact RelR.map ih fun _ _ h => .cons ⟨rfl, hq⟩ h

/-- The elements of lists of the same length. -/
theorem getElem?_low {α : Type} {P : α → α → Prop} {xs ys : List α} (h : List.Forall₂ P xs ys) (i : Nat) :
    (xs[i]? = none ∧ ys[i]? = none) ∨ ∃ a b, xs[i]? = some a ∧ ys[i]? = some b ∧ P a b := by
  induction h generalizing i with
  | nil => exact .inl ⟨rfl, rfl⟩
  | cons h _ ih =>
    cases i with
    | zero => exact .inr ⟨_, _, rfl, rfl, h⟩
    | succ i => simpa using ih i

theorem set_low {α : Type} {P : α → α → Prop} {xs ys : List α} (h : List.Forall₂ P xs ys) (i : Nat) {a b : α} (hab : P a b) :
    List.Forall₂ P (xs.set i a) (ys.set i b) := by
  induction h generalizing i with
  | nil => exact .nil
  | cons h ht ih =>
    cases i with
    | zero => exact .cons hab ht
    | succ i => exact .cons h (ih i)

theorem idx_low {xs ys : List Val} (h : List.Forall₂ Low xs ys) (i : Nat) :
    RelR Low (up (Verif.idx xs i)) (up (Verif.idx ys i)) := by
  unfold Verif.idx
  rcases getElem?_low h i with ⟨h1, h2⟩ | ⟨a, b, h1, h2, h⟩ <;> rw [h1, h2]
  · rfl
  · exact h

theorem slice_low {xs ys : List Val} (h : List.Forall₂ Low xs ys) (a b : Nat) :
    RelR (List.Forall₂ Low) (up (Verif.slice xs a b)) (up (Verif.slice ys a b)) := by
  unfold Verif.slice
  rw [h.length_eq]
  split
  · exact List.forall₂_drop _ (List.forall₂_take _ h)
  · rfl

theorem getAcc_low {v w : Val} (h : Low v w) (a : Acc) : RelR Low (getAcc v a) (getAcc w a) := by
  cases v <;> cases w <;> simp [Low, Val.mask] at h <;> (try cases a) <;> try rfl
  · exact idx_low (Lows.forall₂.1 h) _
  · exact RelR.map (slice_low (Lows.forall₂.1 h) _ _) fun _ _ h => .seq h
  · exact getVar_low (Q := fun _ => Low) (lowFields_forall₂.1 h.2) _

theorem upd_low {xs ys : List Val} (h : List.Forall₂ Low xs ys) (i : Nat) {a b : Val} (hab : Low a b) :
    RelR (List.Forall₂ Low) (up (Verif.upd xs i a)) (up (Verif.upd ys i b)) := by
  unfold Verif.upd
  rw [h.length_eq]
  split
  · exact set_low h i hab
  · rfl

theorem append_low {α : Type} {P : α → α → Prop} {as bs cs ds : List α} (h : List.Forall₂ P as bs) (h' : List.Forall₂ P cs ds) :
    List.Forall₂ P (as ++ cs) (bs ++ ds) := List.rel_append h h'

theorem setAcc_low {v w : Val} (h : Low v w) (a : Acc) {x y : Val} (hx : Low x y) :
    RelR Low (setAcc v a x) (setAcc w a y) := by
  cases v <;> cases w <;> simp [Low, Val.mask] at h <;> (try cases a) <;> try rfl
  · exact RelR.map (upd_low (Lows.forall₂.1 h) _ hx) fun _ _ h => .seq h
  · have h := Lows.forall₂.1 h
    cases x <;> cases y <;> simp [Low, Val.mask] at hx <;> try rfl
    have hx := Lows.forall₂.1 hx
    exact Low.seq (append_low (append_low (List.forall₂_take _ h) hx) (List.forall₂_drop _ h))
  · obtain ⟨rfl, h⟩ := h
    refine RelR.map (setVar_low (Q := fun _ => Low) (lowFields_forall₂.1 h) hx) fun _ _ h => ?_
    have := lowFields_forall₂.2 h
    simpa [Low, Val.mask] using this

theorem getAccs_low {v w : Val} (h : Low v w) (as : List Acc) : RelR Low (getAccs v as) (getAccs w as) := by
  induction as generalizing v w with
  | nil => exact h
  | cons a as ih => exact RelR.bind (getAcc_low h a) fun _ _ h => ih h

theorem setAccs_low {v w : Val} (h : Low v w) (as : List Acc) {x y : Val} (hx : Low x y) :
    RelR Low (setAccs v as x) (setAccs w as y) := by
  induction as generalizing v w with
  | nil => exact hx
  | cons a as ih =>
    cases as with
    | nil => exact setAcc_low h a hx
    | cons b bs => exact RelR.bind (getAcc_low h a) fun _ _ h' => RelR.bind (ih h') fun _ _ h'' => setAcc_low h a h''

theorem readPath_low {Γ : Gam} (p : Path) (hp : Γ p.root = .any) : RelE Γ Low (readPath p) (readPath p) := by
  intro e f h
  refine RelR.bind (getVar_low (Q := fun x => LowL (Γ x)) h p.root) fun v w hv => ?_
  rw [hp] at hv
  exact RelR.bind (getAccs_low hv p.accs) fun _ _ hw => ⟨hw, h⟩

theorem readVar_low {Γ : Gam} (x : Id) : RelE Γ (LowL (Γ x)) (readPath ⟨x, []⟩) (readPath ⟨x, []⟩) := by
  intro e f h
  exact RelR.bind (getVar_low (Q := fun x => LowL (Γ x)) h x) fun v w hv => ⟨hv, h⟩

theorem writePath_low {Γ : Gam} (p : Path) (hp : Γ p.root = .any) {x y : Val} (hx : Low x y) :
    RelE Γ Low (writePath p x) (writePath p y) := by
  intro e f h
  refine RelR.bind (getVar_low (Q := fun x => LowL (Γ x)) h p.root) fun v w hv => ?_
  rw [hp] at hv
  refine RelR.bind (setAccs_low hv p.accs hx) fun _ _ hw => ?_
  refine RelR.bind (setVar_low (Q := fun x => LowL (Γ x)) h (x := p.root) (by rw [hp]; exact hw)) fun _ _ h => ⟨rfl, h⟩

/-! ### Operators -/

/-- The label of the result of an operator. -/
def binLab (op : BinOp) (a b : Lab) : Option Lab :=
  match op with
  | .shl | .shr => if b.leq .pub then some (if a.leq .pub then .pub else .any) else none
  | .and | .or | .xor =>
    if a = .num ∨ b = .num then some .num
    else if a.leq .pub && b.leq .pub then some .pub else some .any
  | .add | .sub | .mul | .div | .rem =>
    if a = .num ∨ b = .num then some .num
    else if a.leq .pub && b.leq .pub then some .pub else none
  | .eq | .ne | .lt | .le | .gt | .ge =>
    if a = .num ∨ b = .num then some .pub
    else if a.leq .pub && b.leq .pub then some .pub else none

def BinOp.isShift : BinOp → Bool
  | .shl | .shr => true
  | _ => false

def BinOp.isCmp : BinOp → Bool
  | .eq | .ne | .lt | .le | .gt | .ge => true
  | _ => false

/-- An operation with a `usize` operand has the same outcome for all other operands with the same public part. -/
theorem evalBin_num_left (T : Target) {op : BinOp} (hop : op.isShift = false) (n : Nat) {b b' : Val} (h : Low b b') :
    evalBin T op (.usize n) b = evalBin T op (.usize n) b' ∧ binLeak op (.usize n) b = binLeak op (.usize n) b' := by
  cases b <;> cases b' <;> simp [Low, Val.mask] at h <;> cases op <;> simp [BinOp.isShift] at hop <;>
    simp_all [evalBin, binLeak]

theorem evalBin_num_right (T : Target) {op : BinOp} (hop : op.isShift = false) (n : Nat) {b b' : Val} (h : Low b b') :
    evalBin T op b (.usize n) = evalBin T op b' (.usize n) ∧ binLeak op b (.usize n) = binLeak op b' (.usize n) := by
  cases b <;> cases b' <;> simp [Low, Val.mask] at h <;> cases op <;> simp [BinOp.isShift] at hop <;>
    simp_all [evalBin, binLeak]

theorem usizeBin_num (T : Target) {op : BinOp} (hc : op.isCmp = false) (a b : Nat) :
    RelR (LowL .num) (usizeBin T op a b) (usizeBin T op a b) := by
  cases op <;> simp [BinOp.isCmp] at hc <;> simp only [usizeBin] <;>
    first
      | rfl
      | exact ⟨rfl, _, rfl⟩
      | exact RelR.map (P := Eq) (RelR.refl _ fun _ => rfl) fun _ _ h => ⟨by rw [h], _, rfl⟩

theorem evalBin_num (T : Target) {op : BinOp} (hop : op.isShift = false) (hc : op.isCmp = false) (a b : Val)
    (h : (∃ n, a = .usize n) ∨ ∃ n, b = .usize n) : RelR (LowL .num) (evalBin T op a b) (evalBin T op a b) := by
  have key : ∀ a b, evalBin T op (.usize a) (.usize b) = usizeBin T op a b := by
    intro a b; cases op <;> simp [BinOp.isShift] at hop <;> rfl
  rcases h with ⟨n, rfl⟩ | ⟨n, rfl⟩
  · cases b
    case usize m => rw [key]; exact usizeBin_num T hc n m
    all_goals (cases op <;> simp [BinOp.isShift] at hop <;> rfl)
  · cases a
    case usize m => rw [key]; exact usizeBin_num T hc m n
    all_goals (cases op <;> simp [BinOp.isShift] at hop <;> rfl)

theorem evalShift_low (T : Target) (left : Bool) {v w : Val} (h : Low v w) (s : Nat) :
    RelR Low (evalShift T left v s) (evalShift T left w s) := by
  have key : ∀ {n : Nat} (x y : BitVec n) (mk : BitVec n → Val), (∀ x y, Low (mk x) (mk y)) →
      RelR Low ((up (if left then bvShl T x s else bvShr T x s)).map mk) ((up (if left then bvShl T y s else bvShr T y s)).map mk) := by
    intro n x y mk hmk
    cases left <;> simp only [bvShl, bvShr] <;> repeat' split
    all_goals first | rfl | exact hmk _ _
  cases v <;> cases w <;> simp [Low, Val.mask] at h <;> try rfl
  · exact key _ _ _ fun _ _ => rfl
  · exact key _ _ _ fun _ _ => rfl
  · exact key _ _ _ fun _ _ => rfl
  · subst h; exact RelR.refl _ fun _ => rfl

theorem evalBit_low (T : Target) {op : BinOp} (hop : op = .and ∨ op = .or ∨ op = .xor) {a b c d : Val} (h : Low a c)
    (h' : Low b d) : RelR Low (evalBin T op a b) (evalBin T op c d) := by
  cases a <;> cases c <;> simp [Low, Val.mask] at h <;> cases b <;> cases d <;> simp [Low, Val.mask] at h' <;>
    rcases hop with rfl | rfl | rfl <;> first | rfl | (subst h; subst h'; rfl)

theorem Lab.eq_of_leq_pub {l : Lab} {v w : Val} (h : l.leq .pub = true) (hv : LowL l v w) : v = w := by
  cases l
  · exact hv.1
  · exact hv
  · simp [Lab.leq] at h

/-- Operators. -/
theorem evalBin_low (T : Target) {op : BinOp} {la lb l : Lab} (hl : binLab op la lb = some l) {a b c d : Val}
    (h : LowL la a c) (h' : LowL lb b d) :
    binLeak op a b = binLeak op c d ∧ RelR (LowL l) (evalBin T op a b) (evalBin T op c d) := by
  have num : op.isShift = false → (la = .num ∨ lb = .num) →
      (binLeak op a b = binLeak op c d ∧ evalBin T op a b = evalBin T op c d ∧
        ((∃ n, a = .usize n) ∨ ∃ n, b = .usize n)) := by
    rintro hs (rfl | rfl)
    · obtain ⟨rfl, n, rfl⟩ := h
      have := evalBin_num_left T hs n h'.low
      exact ⟨this.2, this.1, .inl ⟨n, rfl⟩⟩
    · obtain ⟨rfl, n, rfl⟩ := h'
      have := evalBin_num_right T hs n h.low
      exact ⟨this.2, this.1, .inr ⟨n, rfl⟩⟩
  have pub : la.leq .pub && lb.leq .pub → a = c ∧ b = d := by
    intro hp
    simp only [Bool.and_eq_true] at hp
    exact ⟨Lab.eq_of_leq_pub hp.1 h, Lab.eq_of_leq_pub hp.2 h'⟩
  by_cases hs : op.isShift = true
  · have hb : lb.leq .pub = true := by
      by_contra hb
      cases op <;> simp [BinOp.isShift] at hs <;> simp [binLab, hb] at hl
    obtain rfl := Lab.eq_of_leq_pub hb h'
    have hle : l = if la.leq .pub then .pub else .any := by
      cases op <;> simp [BinOp.isShift] at hs <;> simp [binLab, hb] at hl <;> exact hl.symm
    have hleak : binLeak op a b = binLeak op c b := by
      cases op <;> simp [BinOp.isShift] at hs <;> rfl
    refine ⟨hleak, ?_⟩
    subst hle
    split
    · rename_i hp
      obtain rfl := Lab.eq_of_leq_pub hp h
      exact RelR.refl _ fun _ => rfl
    · cases op <;> simp [BinOp.isShift] at hs <;>
        exact RelR.bind (P := Eq) (RelR.refl _ fun _ => rfl) fun s s' e => e ▸ evalShift_low T _ h.low s
  · have hs : op.isShift = false := by simpa using hs
    by_cases hn : la = .num ∨ lb = .num
    · obtain ⟨h1, h2, h3⟩ := num hs hn
      refine ⟨h1, ?_⟩
      rw [← h2]
      by_cases hc : op.isCmp = true
      · have : l = .pub := by cases op <;> simp [BinOp.isCmp] at hc <;> simp [binLab, hn] at hl <;> exact hl.symm
        subst this
        exact RelR.refl _ fun _ => rfl
      · have hc : op.isCmp = false := by simpa using hc
        have : l = .num := by
          cases op <;> simp [BinOp.isCmp] at hc <;> simp [BinOp.isShift] at hs <;> simp [binLab, hn] at hl <;> exact hl.symm
        subst this
        exact evalBin_num T hs hc a b h3
    · by_cases hp : (la.leq .pub && lb.leq .pub) = true
      · obtain ⟨rfl, rfl⟩ := pub hp
        refine ⟨rfl, ?_⟩
        have : l = .pub := by
          cases op <;> simp [BinOp.isShift] at hs <;> simp only [binLab, hn, hp] at hl <;> simpa using hl.symm
        subst this
        exact RelR.refl _ fun _ => rfl
      · have hop : op = .and ∨ op = .or ∨ op = .xor := by
          cases op <;> simp [BinOp.isShift] at hs <;> simp only [binLab, hn, hp] at hl <;> simp at hl <;> simp
        have : l = .any := by
          rcases hop with rfl | rfl | rfl <;> simp only [binLab, hn, hp] at hl <;> simpa using hl.symm
        subst this
        refine ⟨?_, evalBit_low T hop h.low h'.low⟩
        rcases hop with rfl | rfl | rfl <;> rfl

theorem evalNot_low {v w : Val} (h : Low v w) : RelR Low (evalNot v) (evalNot w) := by
  cases v <;> cases w <;> simp [Low, Val.mask] at h <;> first | rfl | (subst h; rfl)

theorem evalCast_low (T : Target) {t : IntTy} (ht : t ≠ .usize) {v w : Val} (h : Low v w) :
    RelR Low (evalCast T t v) (evalCast T t w) := by
  cases v <;> cases w <;> simp [Low, Val.mask] at h <;> cases t <;> first | rfl | exact absurd rfl ht

theorem evalFrom_low {t : IntTy} (ht : t ≠ .usize) {v w : Val} (h : Low v w) : RelR Low (evalFrom t v) (evalFrom t w) := by
  cases v <;> cases w <;> simp [Low, Val.mask] at h <;> cases t <;> first | rfl | exact absurd rfl ht

theorem evalRange_low (incl : Bool) {a b c d : Val} (h : Low a c) (h' : Low b d) :
    RelR Low (evalRange incl a b) (evalRange incl c d) := by
  cases a <;> cases c <;> simp [Low, Val.mask] at h <;> cases b <;> cases d <;> simp [Low, Val.mask] at h' <;>
    first | rfl | (subst h; subst h'; rfl)

/-! ### Library functions -/

theorem sizeOfVal_low {v w : Val} (h : Low v w) : sizeOfVal v = sizeOfVal w := by
  cases v <;> cases w <;> simp [Low, Val.mask] at h <;> try rfl
  · subst h; rfl
  · simp [sizeOfVal, Lows.length h]

theorem sizesOf_low {vs ws : List Val} (h : List.Forall₂ Low vs ws) : vs.flatMap sizeOfVal = ws.flatMap sizeOfVal := by
  induction h with
  | nil => rfl
  | cons h _ ih => simp [sizeOfVal_low h, ih]

theorem Low.tup {xs ys : List Val} (h : List.Forall₂ Low xs ys) : Low (.tup xs) (.tup ys) := by
  have : Val.masks xs = Val.masks ys := Lows.forall₂.2 h
  simpa [Low, Val.mask] using this

theorem Low.enum (c : Ctor) {xs ys : List Val} (h : List.Forall₂ Low xs ys) : Low (.enum c xs) (.enum c ys) := by
  have : Val.masks xs = Val.masks ys := Lows.forall₂.2 h
  simpa [Low, Val.mask] using this

theorem Low.struct (s : Struct) {xs ys : List (Id × Val)} (h : List.Forall₂ (fun a b => a.1 = b.1 ∧ Low a.2 b.2) xs ys) :
    Low (.struct s xs) (.struct s ys) := by
  have := lowFields_forall₂.2 h
  simpa [Low, Val.mask] using this

theorem zipWith_low {xs ys xs' ys' : List Val} (h : List.Forall₂ Low xs ys) (h' : List.Forall₂ Low xs' ys') :
    List.Forall₂ Low (List.zipWith (fun x y => Val.tup [x, y]) xs xs') (List.zipWith (fun x y => Val.tup [x, y]) ys ys') := by
  induction h generalizing xs' ys' with
  | nil => exact .nil
  | cons h _ ih =>
    cases h' with
    | nil => exact .nil
    | cons h1 h2 => exact .cons (.tup (.cons h (.cons h1 .nil))) (ih h2)

theorem enumerate_low {xs ys : List Val} (h : List.Forall₂ Low xs ys) (k : Nat) :
    List.Forall₂ Low ((xs.zipIdx k).map fun (x, i) => Val.tup [.usize i, x]) ((ys.zipIdx k).map fun (x, i) => Val.tup [.usize i, x]) := by
  induction h generalizing k with
  | nil => exact .nil
  | cons h _ ih =>
    simp only [List.zipIdx_cons, List.map_cons]
    exact .cons (.tup (.cons rfl (.cons h .nil))) (ih (k + 1))

theorem flatten_low {xs ys : List Val} (h : List.Forall₂ Low xs ys) :
    RelR (List.Forall₂ Low) (flattenVals xs) (flattenVals ys) := by
  induction h with
  | nil => exact .nil
  | cons h _ ih =>
    rename_i a b _ _ _
    cases a <;> cases b <;> simp [Low, Val.mask] at h <;> try rfl
    exact RelR.map ih fun _ _ h' => append_low (Lows.forall₂.1 h) h'

theorem chunksAux_low (k n : Nat) {xs ys : List Val} (h : List.Forall₂ Low xs ys) :
    List.Forall₂ Low ((chunksAux k n xs).map .seq) ((chunksAux k n ys).map .seq) := by
  induction k generalizing xs ys with
  | zero => exact .nil
  | succ k ih => exact .cons (.seq (List.forall₂_take _ h)) (ih (List.forall₂_drop _ h))

theorem replicate_low (n : Nat) {v w : Val} (h : Low v w) : List.Forall₂ Low (List.replicate n v) (List.replicate n w) := by
  induction n with
  | zero => exact .nil
  | succ n ih => exact .cons h ih

/-- The label of the result of a library function. -/
def primLab : Prim → Lab
  | .len | .min => .num
  | _ => .any

/-- Library functions. -/
theorem evalPrim_low (T : Target) (p : Prim) {vs ws : List Val} (h : List.Forall₂ Low vs ws) :
    RelR (LowL (primLab p)) (evalPrim T p vs) (evalPrim T p ws) := by
  rcases h with _ | ⟨h1, _ | ⟨h2, _ | ⟨h3, h4⟩⟩⟩
  · cases p <;> rfl
  · rename_i a b
    cases a <;> cases b <;> simp [Low, Val.mask] at h1 <;> cases p <;> (try rfl) <;> (try (subst h1))
    · exact RelR.map (P := Eq) (RelR.refl _ fun _ => rfl) fun _ _ h => rfl
    · exact ⟨by rw [Lows.length h1], _, rfl⟩
    · exact .seq (enumerate_low (Lows.forall₂.1 h1) 0)
    · exact .seq (List.rel_reverse (Lows.forall₂.1 h1))
    · exact RelR.map (flatten_low (Lows.forall₂.1 h1)) fun _ _ h => .seq h
    · obtain ⟨rfl, h⟩ := h1
      rename_i c _ _
      rcases Lows.forall₂.1 h with _ | ⟨h1, _ | ⟨h2, h3⟩⟩ <;> cases c <;> first | rfl | exact h1
  · rename_i a b c d
    have key : ∀ t, RelR Low (evalPrim T (.vecRepeat t) [a, c]) (evalPrim T (.vecRepeat t) [b, d]) := by
      intro t
      cases c <;> cases d <;> simp [Low, Val.mask] at h2 <;> try rfl
      subst h2
      exact RelR.map (P := Eq) (RelR.refl _ fun _ => rfl) fun _ _ _ => .seq (replicate_low _ h1)
    have key' : ∀ x y, evalPrim T .unwrapOrDefault [x, y] = .error .stuck := by
      intro x y
      unfold evalPrim
      split <;> simp_all
    cases p
    case vecRepeat t => exact key t
    case unwrapOrDefault => rw [key', key']; rfl
    all_goals
      cases a <;> cases b <;> simp [Low, Val.mask] at h1 <;> (try rfl) <;>
        cases c <;> cases d <;> simp [Low, Val.mask] at h2 <;> (try rfl)
    · exact .seq (zipWith_low (Lows.forall₂.1 h1) (Lows.forall₂.1 h2))
    · subst h2
      have h := Lows.forall₂.1 h1
      simp only [evalPrim, Verif.chunks, h.length_eq]
      split
      · rfl
      · exact .seq (chunksAux_low _ _ h)
    · subst h2
      have h := Lows.forall₂.1 h1
      simp only [evalPrim, Verif.chunksExact, h.length_eq]
      split
      · rfl
      · exact .seq (chunksAux_low _ _ h)
    · subst h1 h2
      exact ⟨rfl, _, rfl⟩
  · have key : ∀ x y z l, evalPrim T p (x :: y :: z :: l) = .error .stuck := by
      intro x y z l
      unfold evalPrim
      split <;> simp_all
    rw [key, key]
    rfl

theorem evalMutPrim_low (p : MutPrim) {x y : Val} (hx : Low x y) {vs ws : List Val} (h : List.Forall₂ Low vs ws) :
    RelR (fun a b => Low a.1 b.1 ∧ Low a.2 b.2) (evalMutPrim p x vs) (evalMutPrim p y ws) := by
  have key : ∀ x y z l, evalMutPrim p x (y :: z :: l) = .error .stuck := by
    intro x y z l
    unfold evalMutPrim
    split <;> simp_all
  cases x <;> cases y <;> simp [Low, Val.mask] at hx <;> (try (cases p <;> rfl))
  · subst hx
    rcases h with _ | ⟨h1, _ | ⟨h2, h3⟩⟩ <;> cases p <;> (try rfl)
    · rename_i a b _ _
      cases a <;> cases b <;> simp [Low, Val.mask] at h1 <;> (try rfl)
      subst h1
      exact ⟨rfl, rfl⟩
    · rw [key, key]; rfl
  · have hx := Lows.forall₂.1 hx
    rcases h with _ | ⟨h1, _ | ⟨h2, h3⟩⟩ <;> cases p <;> (try rfl)
    · exact ⟨rfl, rfl⟩
    · exact ⟨.seq (append_low hx (.cons h1 .nil)), rfl⟩
    · rename_i a b
      cases a <;> cases b <;> simp [Low, Val.mask] at h1 <;> (try rfl)
      subst h1
      simp only [evalMutPrim, hx.length_eq]
      split
      · exact ⟨.seq (List.forall₂_take _ hx), .seq (List.forall₂_drop _ hx)⟩
      · rfl
    · rename_i a b
      cases a <;> cases b <;> simp [Low, Val.mask] at h1 <;> (try rfl)
      have h1 := Lows.forall₂.1 h1
      simp only [evalMutPrim, hx.length_eq, h1.length_eq]
      split
      · exact ⟨.seq h1, rfl⟩
      · rfl
    · rename_i a b
      cases a <;> cases b <;> simp [Low, Val.mask] at h1 <;> (try rfl)
      exact ⟨.seq (append_low hx (Lows.forall₂.1 h1)), rfl⟩
    all_goals (rw [key, key]; rfl)

/-! ### Patterns -/

mutual
/-- All variables of the pattern have the label `any`. -/
def patAny (Γ : Gam) : Pat → Bool
  | .wild => true
  | .var x => Γ x = .any
  | .int _ _ => true
  | .ctor _ ps => patsAny Γ ps
  | .tup ps => patsAny Γ ps
def patsAny (Γ : Gam) : List Pat → Bool
  | [] => true
  | p :: ps => patAny Γ p && patsAny Γ ps
end

def RelO {α : Type} (P : α → α → Prop) : Option α → Option α → Prop
  | some a, some b => P a b
  | none, none => True
  | _, _ => False

theorem RelO.bind {α β : Type} {P : α → α → Prop} {Q : β → β → Prop} {x y : Option α} {f g : α → Option β} (h : RelO P x y)
    (hf : ∀ a b, P a b → RelO Q (f a) (g b)) : RelO Q (x.bind f) (y.bind g) := by
  rcases x with _ | a <;> rcases y with _ | b
  · trivial
  · exact h.elim
  · exact h.elim
  · exact hf a b h

theorem RelO.map {α β : Type} {P : α → α → Prop} {Q : β → β → Prop} {x y : Option α} {f g : α → β} (h : RelO P x y)
    (hf : ∀ a b, P a b → Q (f a) (g b)) : RelO Q (x.map f) (y.map g) := by
  rcases x with _ | a <;> rcases y with _ | b
  · trivial
  · exact h.elim
  · exact h.elim
  · exact hf a b h

mutual
theorem matchPat_low {Γ : Gam} : ∀ (p : Pat), patAny Γ p = true → ∀ {v w : Val}, Low v w →
    RelO (LowEnv Γ) (matchPat p v) (matchPat p w)
  | .wild, _, _, _, _ => by simp only [matchPat]; exact .nil
  | .var x, hp, v, w, h => by
    simp only [matchPat]
    refine .cons ⟨rfl, ?_⟩ .nil
    have : Γ x = .any := by simpa [patAny] using hp
    show LowL (Γ x) v w
    rw [this]
    exact h
  | .int t n, _, v, w, h => by
    cases v <;> cases w <;> simp [Low, Val.mask] at h <;> cases t <;> simp only [matchPat] <;> try trivial
    subst h
    split
    · exact .nil
    · trivial
  | .ctor c ps, hp, v, w, h => by
    have hp : patsAny Γ ps = true := by simpa [patAny] using hp
    cases v <;> cases w <;> simp [Low, Val.mask] at h <;> simp only [matchPat] <;> try trivial
    obtain ⟨rfl, h⟩ := h
    split
    · exact matchPats_low ps hp (Lows.forall₂.1 h)
    · trivial
  | .tup ps, hp, v, w, h => by
    have hp : patsAny Γ ps = true := by simpa [patAny] using hp
    cases v <;> cases w <;> simp [Low, Val.mask] at h <;> simp only [matchPat] <;> try trivial
    exact matchPats_low ps hp (Lows.forall₂.1 h)
theorem matchPats_low {Γ : Gam} : ∀ (ps : List Pat), patsAny Γ ps = true → ∀ {vs ws : List Val}, List.Forall₂ Low vs ws →
    RelO (LowEnv Γ) (matchPats ps vs) (matchPats ps ws)
  | [], _, vs, ws, h => by
    cases h with
    | nil => simp only [matchPats]; exact .nil
    | cons _ _ => simp only [matchPats]; trivial
  | p :: ps, hp, vs, ws, h => by
    have hp : patAny Γ p = true ∧ patsAny Γ ps = true := by simpa [patsAny] using hp
    cases h with
    | nil => simp only [matchPats]; trivial
    | cons h h' =>
      simp only [matchPats]
      exact RelO.bind (matchPat_low p hp.1 h) fun _ _ hb => RelO.map (matchPats_low ps hp.2 h') fun _ _ hb' => append_low hb' hb
end

/-! ### Steps -/

theorem LowEnv.append {Γ : Gam} {a b c d : Env} (h : LowEnv Γ a b) (h' : LowEnv Γ c d) : LowEnv Γ (a ++ c) (b ++ d) :=
  append_low h h'

namespace RelE
variable {Γ : Gam} {α β : Type} {P : α → α → Prop}

theorem lift {x y : R α} (h : RelR P x y) : RelE Γ P (Source.lift x) (Source.lift y) :=
  fun _ _ he => RelR.bind h fun _ _ h => ⟨h, he⟩

theorem stuck : RelE Γ P Source.stuck Source.stuck := fun _ _ _ => rfl

theorem pure {a b : α} (h : P a b) : RelE Γ P (Pure.pure a) (Pure.pure b) := fun _ _ he => ⟨h, he⟩

theorem bind {Q : β → β → Prop} {x y : E α} {f g : α → E β} (h : RelE Γ P x y) (hf : ∀ a b, P a b → RelE Γ Q (f a) (g b)) :
    RelE Γ Q (x >>= f) (y >>= g) := by
  intro e e' he
  have := h e e' he
  show RelR _ (x e >>= _) (y e' >>= _)
  refine RelR.bind this fun ⟨c, e1⟩ ⟨d, e2⟩ hc => ?_
  rcases c with a | v | _ <;> rcases d with b | w | _ <;> try exact hc.elim
  · exact hf a b hc.1 e1 e2 hc.2
  · exact hc
  · exact hc

theorem push {bs cs : Env} (h : LowEnv Γ bs cs) : RelE Γ Low (Source.push bs) (Source.push cs) :=
  fun _ _ he => ⟨rfl, h.append he⟩

theorem ofSeq {v w : Val} (h : Low v w) : RelE Γ (List.Forall₂ Low) (Source.ofSeq v) (Source.ofSeq w) := by
  cases v <;> cases w <;> simp [Low, Val.mask] at h <;> try exact stuck
  exact pure (Lows.forall₂.1 h)

theorem ofUsize {v w : Val} (h : Low v w) : RelE Γ Eq (Source.ofUsize v) (Source.ofUsize w) := by
  cases v <;> cases w <;> simp [Low, Val.mask] at h <;> try exact stuck
  exact pure h

theorem bindPat {p : Pat} (hp : patAny Γ p = true) {v w : Val} (h : Low v w) :
    RelE Γ Low (Source.bindPat p v) (Source.bindPat p w) := by
  have := matchPat_low p hp h
  unfold Source.bindPat
  revert this
  rcases matchPat p v with _ | bs <;> rcases matchPat p w with _ | cs <;> intro this
  · exact stuck
  · exact this.elim
  · exact this.elim
  · exact push this

theorem mono {Q : α → α → Prop} {x y : E α} (h : RelE Γ P x y) (hq : ∀ a b, P a b → Q a b) : RelE Γ Q x y :=
  fun e f he => RelR.mono (h e f he) fun c d hc => by
    obtain ⟨c, e1⟩ := c
    obtain ⟨d, e2⟩ := d
    rcases c with a | v | _ <;> rcases d with b | w | _ <;> try exact hc.elim
    · exact ⟨hq _ _ hc.1, hc.2⟩
    · exact hc
    · exact hc

end RelE

namespace Rel
variable {Γ : Gam} {α β : Type} {P : α → α → Prop}

theorem quiet {x y : E α} (h : RelE Γ P x y) : Rel Γ P (Source.quiet x) (Source.quiet y) := fun e f he => ⟨rfl, h e f he⟩

theorem pure {a b : α} (h : P a b) : Rel Γ P (Pure.pure a) (Pure.pure b) := fun _ _ he => ⟨rfl, h, he⟩

theorem bind {Q : β → β → Prop} {x y : ET α} {f g : α → ET β} (h : Rel Γ P x y) (hf : ∀ a b, P a b → Rel Γ Q (f a) (g b)) :
    Rel Γ Q (x >>= f) (y >>= g) := by
  intro e e' he
  have := h e e' he
  show (thenT (x e) f).1 = (thenT (y e') g).1 ∧ RelR _ (thenT (x e) f).2 (thenT (y e') g).2
  revert this
  rcases x e with ⟨t, e1 | ⟨a | v | _, e1⟩⟩ <;> rcases y e' with ⟨t', e2 | ⟨b | w | _, e2⟩⟩ <;> rintro ⟨rfl, h⟩ <;>
    try exact h.elim
  · exact ⟨rfl, h⟩
  · have := hf a b h.1 e1 e2 h.2
    exact ⟨congrArg (t ++ ·) this.1, this.2⟩
  · exact ⟨rfl, h⟩
  · exact ⟨rfl, h⟩

theorem emit {t t' : Trace} (h : t = t') : Rel Γ (fun _ _ => True) (Source.emit t) (Source.emit t') :=
  fun _ _ he => ⟨h, trivial, he⟩

theorem mono {Q : α → α → Prop} {x y : ET α} (h : Rel Γ P x y) (hq : ∀ a b, P a b → Q a b) : Rel Γ Q x y :=
  fun e f he => ⟨(h e f he).1, RelR.mono (h e f he).2 fun c d hc => by
    obtain ⟨c, e1⟩ := c
    obtain ⟨d, e2⟩ := d
    rcases c with a | v | _ <;> rcases d with b | w | _ <;> try exact hc.elim
    · exact ⟨hq _ _ hc.1, hc.2⟩
    · exact hc
    · exact hc⟩

theorem inScope {x y : ET α} (h : Rel Γ P x y) : Rel Γ P (inScopeT x) (inScopeT y) := by
  intro e f he
  refine ⟨(h e f he).1, RelR.bind (h e f he).2 fun c d hc => ?_⟩
  obtain ⟨c, e1⟩ := c
  obtain ⟨d, e2⟩ := d
  have key : LowEnv Γ e1 e2 → LowEnv Γ (e1.drop (e1.length - e.length)) (e2.drop (e2.length - f.length)) := by
    intro h
    rw [List.Forall₂.length_eq h, List.Forall₂.length_eq he]
    exact List.forall₂_drop _ h
  rcases c with a | v | _ <;> rcases d with b | w | _ <;> try exact hc.elim
  · exact ⟨hc.1, key hc.2⟩
  · exact ⟨hc.1, key hc.2⟩
  · exact key hc

theorem absorb {x y : ET Val} (h : Rel Γ Low x y) : Rel Γ Low (absorbT x) (absorbT y) := by
  intro e f he
  refine ⟨(h e f he).1, RelR.bind (h e f he).2 fun c d hc => ?_⟩
  obtain ⟨c, e1⟩ := c
  obtain ⟨d, e2⟩ := d
  rcases c with a | v | _ <;> rcases d with b | w | _ <;> try exact hc.elim
  · exact ⟨rfl, hc.2⟩
  · exact hc
  · exact ⟨rfl, hc⟩

theorem branch {P : Val → Val → Prop} {v w : Val} (h : Low v w) {a b c d : ET Val} (hab : Rel Γ P a b) (hcd : Rel Γ P c d) :
    Rel Γ P (branchT v a c) (branchT w b d) := by
  cases v <;> cases w <;> simp [Low, Val.mask] at h <;> try exact quiet .stuck
  subst h
  rename_i b
  cases b
  · exact bind (emit rfl) fun _ _ _ => hcd
  · exact bind (emit rfl) fun _ _ _ => hab

theorem whileLoop {c c' b b' : ET Val} (hc : Rel Γ Low c c') (hb : Rel Γ Low b b') (n : Nat) :
    Rel Γ Low (whileLoopT c b n) (whileLoopT c' b' n) := by
  induction n with
  | zero => exact quiet fun _ _ _ => rfl
  | succ n ih => exact bind hc fun _ _ h => branch h (bind (absorb (inScope hb)) fun _ _ _ => ih) (pure rfl)

theorem forLoop {Q : α → α → Prop} {f g : α → ET Val} (h : ∀ a b, Q a b → Rel Γ Low (f a) (g b)) {xs ys : List α}
    (hx : List.Forall₂ Q xs ys) : Rel Γ Low (forLoopT f xs) (forLoopT g ys) := by
  induction hx with
  | nil => exact pure rfl
  | cons hq _ ih => exact bind (absorb (inScope (h _ _ hq))) fun _ _ _ => ih

theorem mapLoop {f g : Val → ET Val} (h : ∀ a b, Low a b → Rel Γ Low (f a) (g b)) {xs ys : List Val}
    (hx : List.Forall₂ Low xs ys) : Rel Γ (List.Forall₂ Low) (mapLoopT f xs) (mapLoopT g ys) := by
  induction hx with
  | nil => exact pure .nil
  | cons hq _ ih => exact bind (inScope (h _ _ hq)) fun _ _ h => bind ih fun _ _ hs => pure (.cons h hs)

theorem mutStep (p : Path) (hp : Γ p.root = .any) {x : Id} (hx : Γ x = .any) {bs cs : Env} (hb : LowEnv Γ bs cs)
    {b b' : ET Val} (h : Rel Γ Low b b') (k : Nat) : Rel Γ Low (mutStepT p x bs b k) (mutStepT p x cs b' k) := by
  have hroot : ∀ a, Γ (p.push a).root = .any := fun _ => hp
  refine bind (quiet (readPath_low _ (hroot _))) fun v w hv => ?_
  intro e f he
  have hvx : LowL (Γ x) v w := by rw [hx]; exact hv
  have he1 : LowEnv Γ ((x, v) :: bs ++ e) ((x, w) :: cs ++ f) := LowEnv.append (.cons ⟨rfl, hvx⟩ hb) he
  have := h _ _ he1
  refine ⟨this.1, RelR.bind this.2 fun c d hc => ?_⟩
  obtain ⟨c, e1⟩ := c
  obtain ⟨d, e2⟩ := d
  have he2 : LowEnv Γ e1 e2 := by
    rcases c with a | v | _ <;> rcases d with b | w | _ <;> first | exact hc.elim | exact hc.2 | exact hc
  refine RelR.bind (getVar_low (Q := fun x => LowL (Γ x)) he2 x) fun v1 w1 hv1 => ?_
  have hdrop : LowEnv Γ (e1.drop (e1.length - e.length)) (e2.drop (e2.length - f.length)) := by
    rw [List.Forall₂.length_eq he2, List.Forall₂.length_eq he]
    exact List.forall₂_drop _ he2
  refine RelR.bind (writePath_low (p.push (.idx k)) (hroot _) hv1.low _ _ hdrop) fun r s hrs => ?_
  obtain ⟨r, e3⟩ := r
  obtain ⟨s, e4⟩ := s
  have he3 : LowEnv Γ e3 e4 := by
    rcases r with a | v | _ <;> rcases s with b | w | _ <;> first | exact hrs.elim | exact hrs.2 | exact hrs
  rcases c with a | v | _ <;> rcases d with b | w | _ <;> try exact hc.elim
  · exact ⟨hc.1, he3⟩
  · exact ⟨hc.1, he3⟩
  · exact he3

end Rel

/-! ### The check -/

/-- What a body is checked against: the parameters of the functions, the labels of the constants, and the labels of the parameters
of the functions that may be called. -/
structure Sec where
  sig : Fn → List Mode
  const : Const → Lab
  fn : Fn → Option (List Lab)

mutual

/-- The label of the value of an expression, if the expression passes. -/
def check (S : Sec) (Γ : Gam) : Expr → Option Lab
  | .int t _ => some (if t = .usize then .num else .pub)
  | .str _ => some .pub
  | .unit => some .pub
  | .var x => some (Γ x)
  | .const c => some (S.const c)
  | .not e => (check S Γ e).bind fun _ => some .any
  | .bin op a b => (check S Γ a).bind fun la => (check S Γ b).bind fun lb => binLab op la lb
  | .andAlso a b => (check S Γ a).bind fun _ => (check S Γ b).bind fun _ => some .any
  | .cast e t => (check S Γ e).bind fun l => if l.leq .pub then some .pub else if t ≠ .usize then some .any else none
  | .from t e => (check S Γ e).bind fun l => if l.leq .pub then some .pub else if t ≠ .usize then some .any else none
  | .field e _ => (check S Γ e).bind fun _ => some .any
  | .index e i => (check S Γ e).bind fun _ => (check S Γ i).bind fun _ => some .any
  | .slice e lo hi => (check S Γ e).bind fun _ => (check S Γ lo).bind fun _ => (check S Γ hi).bind fun _ => some .any
  | .sliceTo e hi => (check S Γ e).bind fun _ => (check S Γ hi).bind fun _ => some .any
  | .sliceFrom e lo => (check S Γ e).bind fun _ => (check S Γ lo).bind fun _ => some .any
  | .range lo hi => (check S Γ lo).bind fun _ => (check S Γ hi).bind fun _ => some .any
  | .rangeIncl lo hi => (check S Γ lo).bind fun _ => (check S Γ hi).bind fun _ => some .any
  | .array es => if checkList S Γ es then some .any else none
  | .repeat e n => (check S Γ e).bind fun _ => (check S Γ n).bind fun _ => some .any
  | .tup es => if checkList S Γ es then some .any else none
  | .struct _ _ es => if checkList S Γ es then some .any else none
  | .ctor _ es => if checkList S Γ es then some .any else none
  | .call f args => (S.fn f).bind fun ls => if checkArgs S Γ (S.sig f) ls args then some .any else none
  | .prim p args => if checkList S Γ args then some (primLab p) else none
  | .mutPrim _ x args => if checkPlace S Γ x && checkList S Γ args then some .any else none
  | .appendFrom x y => if checkPlace S Γ x && checkPlace S Γ y then some .any else none
  | .map e p body => (check S Γ e).bind fun _ => (check S Γ body).bind fun _ => if patAny Γ p then some .any else none
  | .ite c a b => (check S Γ c).bind fun _ => (check S Γ a).bind fun _ => (check S Γ b).bind fun _ => some .any
  | .match e ps bodies => (check S Γ e).bind fun _ => if patsAny Γ ps && checkList S Γ bodies then some .any else none
  | .block ss e => if checkList S Γ ss then check S Γ e else none
  | .let p e => (check S Γ e).bind fun l =>
      match p with
      | .var x => if l.leq (Γ x) then some .any else none
      | p => if patAny Γ p then some .any else none
  | .decl x => if Γ x = .any then some .any else none
  | .assign x e => (check S Γ e).bind fun _ => if checkPlace S Γ x then some .any else none
  | .assignOp op x e => (check S Γ e).bind fun l =>
      if checkPlace S Γ x then (binLab op .any l).bind fun _ => some .any else none
  | .return e => (check S Γ e).bind fun _ => some .any
  | .continue => some .any
  | .try e => (check S Γ e).bind fun _ => some .any
  | .while c body => (check S Γ c).bind fun _ => (check S Γ body).bind fun _ => some .any
  | .for p e body => (check S Γ e).bind fun _ => (check S Γ body).bind fun _ => if patAny Γ p then some .any else none
  | .forMut x place body => (check S Γ body).bind fun _ => if checkPlace S Γ place && Γ x = .any then some .any else none
  | .forMutEnum i x place body => (check S Γ body).bind fun _ =>
      if checkPlace S Γ place && Γ i = .any && Γ x = .any then some .any else none
  | .forMutZip x p place e body => (check S Γ e).bind fun _ => (check S Γ body).bind fun _ =>
      if checkPlace S Γ place && patAny Γ p && Γ x = .any then some .any else none

/-- A place in a variable with the label `any`. -/
def checkPlace (S : Sec) (Γ : Gam) : Expr → Bool
  | .var x => Γ x = .any
  | .field e _ => checkPlace S Γ e
  | .index e i => checkPlace S Γ e && (check S Γ i).isSome
  | .slice e lo hi => checkPlace S Γ e && (check S Γ lo).isSome && (check S Γ hi).isSome
  | .sliceTo e hi => checkPlace S Γ e && (check S Γ hi).isSome
  | .sliceFrom e lo => checkPlace S Γ e && (check S Γ lo).isSome
  | _ => false

def checkList (S : Sec) (Γ : Gam) : List Expr → Bool
  | [] => true
  | e :: es => (check S Γ e).isSome && checkList S Γ es

/-- Arguments fit the labels of the parameters. -/
def checkArgs (S : Sec) (Γ : Gam) : List Mode → List Lab → List Expr → Bool
  | [], [], [] => true
  | .val :: ms, l :: ls, e :: es =>
    (match check S Γ e with
      | some l' => l'.leq l
      | none => false) && checkArgs S Γ ms ls es
  | .mutRef :: ms, l :: ls, e :: es => l = .any && checkPlace S Γ e && checkArgs S Γ ms ls es
  | _, _, _ => false

end

/-! ### Soundness -/

inductive LowLs : List Lab → List Val → List Val → Prop
  | nil : LowLs [] [] []
  | cons {l ls v w vs ws} : LowL l v w → LowLs ls vs ws → LowLs (l :: ls) (v :: vs) (w :: ws)

inductive ArgsLow (Γ : Gam) : List Lab → List Arg → List Arg → Prop
  | nil : ArgsLow Γ [] [] []
  | val {l ls v w as bs} : LowL l v w → ArgsLow Γ ls as bs → ArgsLow Γ (l :: ls) (.val v :: as) (.val w :: bs)
  | place {ls p as bs} : Γ p.root = .any → ArgsLow Γ ls as bs → ArgsLow Γ (.any :: ls) (.place p :: as) (.place p :: bs)

theorem readArgs_low {Γ : Gam} {ls : List Lab} {as bs : List Arg} (h : ArgsLow Γ ls as bs) :
    RelE Γ (LowLs ls) (readArgs as) (readArgs bs) := by
  induction h with
  | nil => exact .pure .nil
  | val h _ ih => exact .bind ih fun _ _ hs => .pure (.cons h hs)
  | place h _ ih => exact .bind (readPath_low _ h) fun _ _ hv => .bind ih fun _ _ hs => .pure (.cons hv hs)

theorem writeArgs_low {Γ : Gam} {ls : List Lab} {as bs : List Arg} (h : ArgsLow Γ ls as bs) {vs ws : List Val}
    (hv : List.Forall₂ Low vs ws) : RelE Γ Low (writeArgs as vs) (writeArgs bs ws) := by
  induction h generalizing vs ws with
  | nil =>
    cases hv with
    | nil => exact .pure rfl
    | cons _ _ => exact .stuck
  | val h _ ih =>
    cases hv with
    | nil => exact ih .nil
    | cons h1 h2 => exact ih (.cons h1 h2)
  | place h _ ih =>
    cases hv with
    | nil => exact .stuck
    | cons h1 h2 => exact .bind (writePath_low _ h h1) fun _ _ _ => ih h2

/-- Two calls show the same and have related outcomes. -/
def CallLow (x y : Trace × R (Val × List Val)) : Prop :=
  x.1 = y.1 ∧ RelR (fun a b => Low a.1 b.1 ∧ List.Forall₂ Low a.2 b.2) x.2 y.2

/-- The context is what the body was checked against. -/
structure Fits (S : Sec) (K : CtxT) : Prop where
  sig : K.sig = S.sig
  const : ∀ c, RelR (LowL (S.const c)) (K.const c) (K.const c)
  call : ∀ f ls, S.fn f = some ls → ∀ vs ws, LowLs ls vs ws → CallLow (K.call f vs) (K.call f ws)

theorem callStep_low {Γ : Gam} {S : Sec} {K : CtxT} (hK : Fits S K) {f : Fn} {ls : List Lab} (hf : S.fn f = some ls)
    {vs ws : List Val} (h : LowLs ls vs ws) :
    Rel Γ (fun a b => Low a.1 b.1 ∧ List.Forall₂ Low a.2 b.2) (callStep K f vs) (callStep K f ws) := by
  intro e e' he
  have := hK.call f ls hf vs ws h
  exact ⟨congrArg (Event.call f :: ·) this.1, RelR.bind this.2 fun _ _ h => ⟨h, he⟩⟩

theorem zip_low (fs : List Id) {vs ws : List Val} (h : List.Forall₂ Low vs ws) :
    List.Forall₂ (fun a b => a.1 = b.1 ∧ Low a.2 b.2) (fs.zip vs) (fs.zip ws) := by
  induction h generalizing fs with
  | nil => simp
  | cons h _ ih =>
    cases fs with
    | nil => exact .nil
    | cons f fs => exact .cons ⟨rfl, h⟩ (ih fs)

theorem isSome_of {α : Type} {x : Option α} (h : x.isSome = true) : ∃ a, x = some a := Option.isSome_iff_exists.1 h

section
variable {S : Sec} {K : CtxT} {Γ : Gam}

/-- What is shown about an expression. -/
def SoundE (S : Sec) (K : CtxT) (Γ : Gam) (e : Expr) : Prop :=
  ∀ l, check S Γ e = some l → Rel Γ (LowL l) (evalT K e) (evalT K e)

theorem SoundE.low {e : Expr} {l : Lab} (h : SoundE S K Γ e) (hl : check S Γ e = some l) : Rel Γ Low (evalT K e) (evalT K e) :=
  (h l hl).mono fun _ _ h => h.low

theorem index_low {v w : Val} (hv : Low v w) {i j : Val} (hi : Low i j) :
    Rel Γ Low (do let n ← quiet (ofUsize i); emit [.index n]; quiet (lift (getAcc v (.idx n))))
      (do let n ← quiet (ofUsize j); emit [.index n]; quiet (lift (getAcc w (.idx n)))) := by
  refine .bind (.quiet (.ofUsize hi)) fun _ _ h => ?_
  subst h
  exact .bind (.emit rfl) fun _ _ _ => .quiet (.lift (getAcc_low hv _))

mutual

theorem check_sound (hK : Fits S K) : ∀ e, SoundE S K Γ e
  | .int t n, l, h => by
    simp only [check, Option.some.injEq] at h
    subst h
    refine .pure ?_
    cases t <;> first | rfl | exact ⟨rfl, _, rfl⟩
  | .str s, l, h => by
    simp only [check, Option.some.injEq] at h
    subst h
    exact .pure rfl
  | .unit, l, h => by
    simp only [check, Option.some.injEq] at h
    subst h
    exact .pure rfl
  | .var x, l, h => by
    simp only [check, Option.some.injEq] at h
    subst h
    exact .quiet (readVar_low x)
  | .const c, l, h => by
    simp only [check, Option.some.injEq] at h
    subst h
    exact .quiet (.lift (hK.const c))
  | .not e, l, h => by
    simp only [check, Option.bind_eq_some_iff, Option.some.injEq] at h
    obtain ⟨l1, h1, rfl⟩ := h
    exact .bind ((check_sound hK e).low h1) fun _ _ h => .quiet (.lift (evalNot_low h))
  | .bin op a b, l, h => by
    simp only [check, Option.bind_eq_some_iff] at h
    obtain ⟨la, h1, lb, h2, h3⟩ := h
    exact .bind (check_sound hK a _ h1) fun _ _ ha => .bind (check_sound hK b _ h2) fun _ _ hb =>
      .bind (.emit (evalBin_low K.T h3 ha hb).1) fun _ _ _ => .quiet (.lift (evalBin_low K.T h3 ha hb).2)
  | .andAlso a b, l, h => by
    simp only [check, Option.bind_eq_some_iff, Option.some.injEq] at h
    obtain ⟨l1, h1, l2, h2, rfl⟩ := h
    exact .bind ((check_sound hK a).low h1) fun _ _ h => .branch h ((check_sound hK b).low h2) (.pure rfl)
  | .cast e t, l, h => by
    simp only [check, Option.bind_eq_some_iff] at h
    obtain ⟨l1, h1, h2⟩ := h
    refine .bind (check_sound hK e _ h1) fun v w hv => .quiet (.lift ?_)
    split at h2
    · rename_i hp
      obtain rfl := Lab.eq_of_leq_pub hp hv
      obtain rfl := Option.some.inj h2
      exact RelR.refl _ fun _ => rfl
    · split at h2
      · rename_i ht
        obtain rfl := Option.some.inj h2
        exact evalCast_low K.T ht hv.low
      · cases h2
  | .from t e, l, h => by
    simp only [check, Option.bind_eq_some_iff] at h
    obtain ⟨l1, h1, h2⟩ := h
    refine .bind (check_sound hK e _ h1) fun v w hv => .quiet (.lift ?_)
    split at h2
    · rename_i hp
      obtain rfl := Lab.eq_of_leq_pub hp hv
      obtain rfl := Option.some.inj h2
      exact RelR.refl _ fun _ => rfl
    · split at h2
      · rename_i ht
        obtain rfl := Option.some.inj h2
        exact evalFrom_low ht hv.low
      · cases h2
  | .field e f, l, h => by
    simp only [check, Option.bind_eq_some_iff, Option.some.injEq] at h
    obtain ⟨l1, h1, rfl⟩ := h
    exact .bind ((check_sound hK e).low h1) fun _ _ h => .quiet (.lift (getAcc_low h _))
  | .index e i, l, h => by
    simp only [check, Option.bind_eq_some_iff, Option.some.injEq] at h
    obtain ⟨l1, h1, l2, h2, rfl⟩ := h
    exact .bind ((check_sound hK e).low h1) fun _ _ h => .bind ((check_sound hK i).low h2) fun _ _ hi => index_low h hi
  | .slice e lo hi, l, h => by
    simp only [check, Option.bind_eq_some_iff, Option.some.injEq] at h
    obtain ⟨l1, h1, l2, h2, l3, h3, rfl⟩ := h
    refine .bind ((check_sound hK e).low h1) fun _ _ h => .bind ((check_sound hK lo).low h2) fun _ _ ha =>
      .bind (.quiet (.ofUsize ha)) fun _ _ ea => .bind ((check_sound hK hi).low h3) fun _ _ hb =>
      .bind (.quiet (.ofUsize hb)) fun _ _ eb => ?_
    subst ea eb
    exact .bind (.emit rfl) fun _ _ _ => .quiet (.lift (getAcc_low h _))
  | .sliceTo e hi, l, h => by
    simp only [check, Option.bind_eq_some_iff, Option.some.injEq] at h
    obtain ⟨l1, h1, l3, h3, rfl⟩ := h
    refine .bind ((check_sound hK e).low h1) fun _ _ h => .bind ((check_sound hK hi).low h3) fun _ _ hb =>
      .bind (.quiet (.ofUsize hb)) fun _ _ eb => ?_
    subst eb
    exact .bind (.emit rfl) fun _ _ _ => .quiet (.lift (getAcc_low h _))
  | .sliceFrom e lo, l, h => by
    simp only [check, Option.bind_eq_some_iff, Option.some.injEq] at h
    obtain ⟨l1, h1, l3, h3, rfl⟩ := h
    refine .bind ((check_sound hK e).low h1) fun _ _ h => .bind ((check_sound hK lo).low h3) fun _ _ hb =>
      .bind (.quiet (.ofUsize hb)) fun _ _ eb => .bind (.quiet (.ofSeq h)) fun _ _ hx => ?_
    subst eb
    rw [hx.length_eq]
    exact .bind (.emit rfl) fun _ _ _ => .quiet (.lift (getAcc_low h _))
  | .range lo hi, l, h => by
    simp only [check, Option.bind_eq_some_iff, Option.some.injEq] at h
    obtain ⟨l1, h1, l2, h2, rfl⟩ := h
    exact .bind ((check_sound hK lo).low h1) fun _ _ ha => .bind ((check_sound hK hi).low h2) fun _ _ hb =>
      .quiet (.lift (evalRange_low _ ha hb))
  | .rangeIncl lo hi, l, h => by
    simp only [check, Option.bind_eq_some_iff, Option.some.injEq] at h
    obtain ⟨l1, h1, l2, h2, rfl⟩ := h
    exact .bind ((check_sound hK lo).low h1) fun _ _ ha => .bind ((check_sound hK hi).low h2) fun _ _ hb =>
      .quiet (.lift (evalRange_low _ ha hb))
  | .array es, l, h => by
    simp only [check, Option.ite_none_right_eq_some, Option.some.injEq] at h
    obtain ⟨h1, rfl⟩ := h
    exact .bind (checkList_sound hK es h1) fun _ _ h => .pure (Low.seq h)
  | .repeat e n, l, h => by
    simp only [check, Option.bind_eq_some_iff, Option.some.injEq] at h
    obtain ⟨l1, h1, l2, h2, rfl⟩ := h
    refine .bind ((check_sound hK e).low h1) fun _ _ ha => .bind ((check_sound hK n).low h2) fun _ _ hb =>
      .bind (.quiet (.ofUsize hb)) fun _ _ eb => ?_
    subst eb
    exact .bind (.emit rfl) fun _ _ _ => .pure (Low.seq (replicate_low _ ha))
  | .tup es, l, h => by
    simp only [check, Option.ite_none_right_eq_some, Option.some.injEq] at h
    obtain ⟨h1, rfl⟩ := h
    exact .bind (checkList_sound hK es h1) fun _ _ h => .pure (Low.tup h)
  | .struct s fs es, l, h => by
    simp only [check, Option.ite_none_right_eq_some, Option.some.injEq] at h
    obtain ⟨h1, rfl⟩ := h
    exact .bind (checkList_sound hK es h1) fun _ _ h => .pure (Low.struct s (zip_low fs h))
  | .ctor c es, l, h => by
    simp only [check, Option.ite_none_right_eq_some, Option.some.injEq] at h
    obtain ⟨h1, rfl⟩ := h
    exact .bind (checkList_sound hK es h1) fun _ _ h => .pure (Low.enum c h)
  | .call f args, l, h => by
    simp only [check, Option.bind_eq_some_iff, Option.ite_none_right_eq_some, Option.some.injEq] at h
    obtain ⟨ls, h1, h2, rfl⟩ := h
    rw [← hK.sig] at h2
    exact .bind (checkArgs_sound hK (K.sig f) ls args h2) fun _ _ ha => .bind (.quiet (readArgs_low ha)) fun _ _ hv =>
      .bind (callStep_low hK h1 hv) fun _ _ hr => .bind (.quiet (writeArgs_low ha hr.2)) fun _ _ _ => .pure hr.1
  | .prim p args, l, h => by
    simp only [check, Option.ite_none_right_eq_some, Option.some.injEq] at h
    obtain ⟨h1, rfl⟩ := h
    exact .bind (checkList_sound hK args h1) fun _ _ h => .bind (.emit (by rw [sizesOf_low h])) fun _ _ _ =>
      .quiet (.lift (evalPrim_low K.T p h))
  | .mutPrim p x args, l, h => by
    simp only [check, Option.ite_none_right_eq_some, Bool.and_eq_true, Option.some.injEq] at h
    obtain ⟨⟨h1, h2⟩, rfl⟩ := h
    refine .bind (checkPlace_sound hK x h1) fun q q' hp => ?_
    obtain ⟨rfl, hp⟩ := hp
    refine .bind (.quiet (readPath_low _ hp)) fun v w hv => .bind (checkList_sound hK args h2) fun vs ws hs => ?_
    refine .bind (.emit (by rw [sizesOf_low (.cons hv hs)])) fun _ _ _ => ?_
    exact .bind (.quiet (.lift (evalMutPrim_low p hv hs))) fun _ _ hr => .bind (.quiet (writePath_low _ hp hr.1)) fun _ _ _ => .pure hr.2
  | .appendFrom x y, l, h => by
    simp only [check, Option.ite_none_right_eq_some, Bool.and_eq_true, Option.some.injEq] at h
    obtain ⟨⟨h1, h2⟩, rfl⟩ := h
    refine .bind (checkPlace_sound hK x h1) fun q q' hp => .bind (checkPlace_sound hK y h2) fun r r' hr => ?_
    obtain ⟨rfl, hp⟩ := hp
    obtain ⟨rfl, hr⟩ := hr
    refine .bind (.quiet (readPath_low _ hp)) fun v w hv => .bind (.quiet (readPath_low _ hr)) fun v' w' hv' => ?_
    refine .bind (.emit (by rw [sizesOf_low (.cons hv (.cons hv' .nil))])) fun _ _ _ => ?_
    exact .bind (.quiet (.lift (evalMutPrim_low .append hv (.cons hv' .nil)))) fun _ _ h =>
      .bind (.quiet (writePath_low _ hp h.1)) fun _ _ _ => .bind (.quiet (writePath_low _ hr rfl)) fun _ _ _ => .pure h.2
  | .map e p body, l, h => by
    simp only [check, Option.bind_eq_some_iff, Option.ite_none_right_eq_some, Option.some.injEq] at h
    obtain ⟨l1, h1, l2, h2, hp, rfl⟩ := h
    refine .bind ((check_sound hK e).low h1) fun _ _ h => .bind (.quiet (.ofSeq h)) fun _ _ hx =>
      .bind (.emit (by rw [hx.length_eq])) fun _ _ _ => ?_
    exact .bind (.mapLoop (fun _ _ hv => .bind (.quiet (.bindPat hp hv)) fun _ _ _ => (check_sound hK body).low h2) hx) fun _ _ h =>
      .pure (Low.seq h)
  | .ite c a b, l, h => by
    simp only [check, Option.bind_eq_some_iff, Option.some.injEq] at h
    obtain ⟨l1, h1, l2, h2, l3, h3, rfl⟩ := h
    exact .bind ((check_sound hK c).low h1) fun _ _ h => .branch h ((check_sound hK a).low h2) ((check_sound hK b).low h3)
  | .match e ps bodies, l, h => by
    simp only [check, Option.bind_eq_some_iff, Option.ite_none_right_eq_some, Bool.and_eq_true, Option.some.injEq] at h
    obtain ⟨l1, h1, ⟨h2, h3⟩, rfl⟩ := h
    exact .bind ((check_sound hK e).low h1) fun _ _ h => checkMatch_sound hK ps bodies h2 h3 h
  | .block ss e, l, h => by
    simp only [check, Option.ite_none_right_eq_some] at h
    exact .inScope (.bind (checkList_sound hK ss h.1) fun _ _ _ => check_sound hK e _ h.2)
  | .let p e, l, h => by
    simp only [check, Option.bind_eq_some_iff] at h
    obtain ⟨l1, h1, h2⟩ := h
    refine .bind (check_sound hK e _ h1) fun v w hv => .quiet ?_
    cases p
    case var x =>
      simp only [Option.ite_none_right_eq_some, Option.some.injEq] at h2
      obtain ⟨h2, rfl⟩ := h2
      show RelE Γ Low (bindPat (.var x) v) (bindPat (.var x) w)
      simp only [bindPat, matchPat]
      exact .push (.cons ⟨rfl, hv.mono h2⟩ .nil)
    all_goals
      simp only [Option.ite_none_right_eq_some, Option.some.injEq] at h2
      obtain ⟨h2, rfl⟩ := h2
      exact .bindPat h2 hv.low
  | .decl x, l, h => by
    simp only [check, Option.ite_none_right_eq_some, Option.some.injEq] at h
    obtain ⟨h1, rfl⟩ := h
    refine .quiet (.push (.cons ⟨rfl, ?_⟩ .nil))
    show LowL (Γ x) _ _
    rw [h1]
    rfl
  | .assign x e, l, h => by
    simp only [check, Option.bind_eq_some_iff, Option.ite_none_right_eq_some, Option.some.injEq] at h
    obtain ⟨l1, h1, h2, rfl⟩ := h
    refine .bind ((check_sound hK e).low h1) fun _ _ hv => .bind (checkPlace_sound hK x h2) fun q q' hp => ?_
    obtain ⟨rfl, hp⟩ := hp
    exact .quiet (writePath_low _ hp hv)
  | .assignOp op x e, l, h => by
    simp only [check, Option.bind_eq_some_iff, Option.ite_none_right_eq_some, Option.some.injEq] at h
    obtain ⟨l1, h1, h2, l2, h3, rfl⟩ := h
    refine .bind (check_sound hK e _ h1) fun v w hv => .bind (checkPlace_sound hK x h2) fun q q' hp => ?_
    obtain ⟨rfl, hp⟩ := hp
    refine .bind (.quiet (readPath_low _ hp)) fun v' w' hv' => ?_
    have hb := evalBin_low K.T h3 (show LowL .any v' w' from hv') hv
    refine .bind (.emit hb.1) fun _ _ _ => ?_
    exact .bind (.quiet (.lift hb.2)) fun _ _ hr => .quiet (writePath_low _ hp hr.low)
  | .return e, l, h => by
    simp only [check, Option.bind_eq_some_iff, Option.some.injEq] at h
    obtain ⟨l1, h1, rfl⟩ := h
    exact .bind ((check_sound hK e).low h1) fun _ _ h => .quiet fun _ _ he => ⟨h, he⟩
  | .continue, l, h => .quiet fun _ _ he => he
  | .try e, l, h => by
    simp only [check, Option.bind_eq_some_iff, Option.some.injEq] at h
    obtain ⟨l1, h1, rfl⟩ := h
    refine .bind ((check_sound hK e).low h1) fun v w h => ?_
    cases v <;> cases w <;> simp [Low, Val.mask] at h <;> try exact .quiet .stuck
    obtain ⟨rfl, h⟩ := h
    rename_i c _ _
    rcases Lows.forall₂.1 h with _ | ⟨h1, _ | ⟨h2, h3⟩⟩ <;> cases c <;> try exact .quiet .stuck
    · exact .bind (.emit rfl) fun _ _ _ => .pure h1
    · exact .bind (.emit rfl) fun _ _ _ => .quiet fun _ _ he => ⟨.enum _ (.cons h1 .nil), he⟩
  | .while c body, l, h => by
    simp only [check, Option.bind_eq_some_iff, Option.some.injEq] at h
    obtain ⟨l1, h1, l2, h2, rfl⟩ := h
    exact .whileLoop ((check_sound hK c).low h1) ((check_sound hK body).low h2) _
  | .for p e body, l, h => by
    simp only [check, Option.bind_eq_some_iff, Option.ite_none_right_eq_some, Option.some.injEq] at h
    obtain ⟨l1, h1, l2, h2, hp, rfl⟩ := h
    refine .bind ((check_sound hK e).low h1) fun _ _ h => .bind (.quiet (.ofSeq h)) fun _ _ hx =>
      .bind (.emit (by rw [hx.length_eq])) fun _ _ _ => ?_
    exact .forLoop (fun _ _ hv => .bind (.quiet (.bindPat hp hv)) fun _ _ _ => (check_sound hK body).low h2) hx
  | .forMut x place body, l, h => by
    simp only [check, Option.bind_eq_some_iff, Option.ite_none_right_eq_some, Bool.and_eq_true, decide_eq_true_eq,
      Option.some.injEq] at h
    obtain ⟨l2, h2, ⟨h1, hx⟩, rfl⟩ := h
    refine .bind (checkPlace_sound hK place h1) fun q q' hp => ?_
    obtain ⟨rfl, hp⟩ := hp
    refine .bind (.quiet (readPath_low _ hp)) fun v w hv => .bind (.quiet (.ofSeq hv)) fun _ _ hs => ?_
    rw [hs.length_eq]
    refine .bind (.emit rfl) fun _ _ _ => ?_
    refine .forLoop (Q := Eq) (fun k k' hk => ?_) (List.forall₂_same.2 fun _ _ => rfl)
    subst hk
    exact .mutStep q hp hx .nil ((check_sound hK body).low h2) k
  | .forMutEnum i x place body, l, h => by
    simp only [check, Option.bind_eq_some_iff, Option.ite_none_right_eq_some, Bool.and_eq_true, decide_eq_true_eq,
      Option.some.injEq] at h
    obtain ⟨l2, h2, ⟨⟨h1, hi⟩, hx⟩, rfl⟩ := h
    refine .bind (checkPlace_sound hK place h1) fun q q' hp => ?_
    obtain ⟨rfl, hp⟩ := hp
    refine .bind (.quiet (readPath_low _ hp)) fun v w hv => .bind (.quiet (.ofSeq hv)) fun _ _ hs => ?_
    rw [hs.length_eq]
    refine .bind (.emit rfl) fun _ _ _ => ?_
    refine .forLoop (Q := Eq) (fun k k' hk => ?_) (List.forall₂_same.2 fun _ _ => rfl)
    subst hk
    refine .mutStep q hp hx (.cons ⟨rfl, ?_⟩ .nil) ((check_sound hK body).low h2) k
    show LowL (Γ i) _ _
    rw [hi]
    rfl
  | .forMutZip x p place e body, l, h => by
    simp only [check, Option.bind_eq_some_iff, Option.ite_none_right_eq_some, Bool.and_eq_true, decide_eq_true_eq,
      Option.some.injEq] at h
    obtain ⟨l1, h1, l2, h2, ⟨⟨h3, hpat⟩, hx⟩, rfl⟩ := h
    refine .bind (checkPlace_sound hK place h3) fun q q' hp => ?_
    obtain ⟨rfl, hp⟩ := hp
    refine .bind (.quiet (readPath_low _ hp)) fun v w hv => .bind (.quiet (.ofSeq hv)) fun _ _ hs => ?_
    refine .bind ((check_sound hK e).low h1) fun _ _ hw => .bind (.quiet (.ofSeq hw)) fun ys ys' hy => ?_
    rw [hs.length_eq, hy.length_eq]
    refine .bind (.emit rfl) fun _ _ _ => ?_
    refine .forLoop (Q := fun a b => a.1 = b.1 ∧ Low a.2 b.2) (fun a b hab => ?_) ?_
    · obtain ⟨k, v⟩ := a
      obtain ⟨k', w⟩ := b
      obtain ⟨rfl, hvw⟩ := hab
      have := matchPat_low p hpat hvw
      show Rel Γ Low (match matchPat p v with | some bs => _ | none => _) (match matchPat p w with | some bs => _ | none => _)
      revert this
      rcases matchPat p v with _ | bs <;> rcases matchPat p w with _ | cs <;> intro this
      · exact .quiet .stuck
      · exact this.elim
      · exact this.elim
      · exact .mutStep q hp hx this ((check_sound hK body).low h2) k
    · generalize List.range _ = ks
      clear * - hy
      induction hy generalizing ks with
      | nil => simp
      | cons h _ ih =>
        cases ks with
        | nil => exact .nil
        | cons k ks => exact .cons ⟨rfl, h⟩ (ih ks)

theorem checkPlace_sound (hK : Fits S K) : ∀ e, checkPlace S Γ e = true →
    Rel Γ (fun p q => p = q ∧ Γ p.root = .any) (evalPlaceT K e) (evalPlaceT K e)
  | .var x, h => .pure ⟨rfl, by simpa [checkPlace] using h⟩
  | .field e f, h => by
    simp only [checkPlace] at h
    refine .bind (checkPlace_sound hK e h) fun p q hp => ?_
    obtain ⟨rfl, hp⟩ := hp
    exact .pure ⟨rfl, hp⟩
  | .index e i, h => by
    simp only [checkPlace, Bool.and_eq_true] at h
    obtain ⟨l, hl⟩ := isSome_of h.2
    refine .bind (checkPlace_sound hK e h.1) fun p q hp => .bind ((check_sound hK i).low hl) fun _ _ hi =>
      .bind (.quiet (.ofUsize hi)) fun _ _ en => ?_
    obtain ⟨rfl, hp⟩ := hp
    subst en
    exact .bind (.emit rfl) fun _ _ _ => .pure ⟨rfl, hp⟩
  | .slice e lo hi, h => by
    simp only [checkPlace, Bool.and_eq_true] at h
    obtain ⟨l, hl⟩ := isSome_of h.1.2
    obtain ⟨l', hl'⟩ := isSome_of h.2
    refine .bind (checkPlace_sound hK e h.1.1) fun p q hp => .bind ((check_sound hK lo).low hl) fun _ _ hi1 =>
      .bind (.quiet (.ofUsize hi1)) fun _ _ en => .bind ((check_sound hK hi).low hl') fun _ _ hi2 =>
      .bind (.quiet (.ofUsize hi2)) fun _ _ en' => ?_
    obtain ⟨rfl, hp⟩ := hp
    subst en en'
    exact .bind (.emit rfl) fun _ _ _ => .pure ⟨rfl, hp⟩
  | .sliceTo e hi, h => by
    simp only [checkPlace, Bool.and_eq_true] at h
    obtain ⟨l, hl⟩ := isSome_of h.2
    refine .bind (checkPlace_sound hK e h.1) fun p q hp => .bind ((check_sound hK hi).low hl) fun _ _ hi =>
      .bind (.quiet (.ofUsize hi)) fun _ _ en => ?_
    obtain ⟨rfl, hp⟩ := hp
    subst en
    exact .bind (.emit rfl) fun _ _ _ => .pure ⟨rfl, hp⟩
  | .sliceFrom e lo, h => by
    simp only [checkPlace, Bool.and_eq_true] at h
    obtain ⟨l, hl⟩ := isSome_of h.2
    refine .bind (checkPlace_sound hK e h.1) fun p q hp => ?_
    obtain ⟨rfl, hp⟩ := hp
    refine .bind ((check_sound hK lo).low hl) fun _ _ hi =>
      .bind (.quiet (.ofUsize hi)) fun _ _ en => .bind (.quiet (readPath_low _ hp)) fun _ _ hv => .bind (.quiet (.ofSeq hv)) fun _ _ hs => ?_
    subst en
    rw [hs.length_eq]
    exact .bind (.emit rfl) fun _ _ _ => .pure ⟨rfl, hp⟩
  | .int .., h | .str .., h | .unit, h | .const .., h | .not .., h | .bin .., h | .andAlso .., h | .cast .., h | .from .., h
  | .range .., h | .rangeIncl .., h | .array .., h | .repeat .., h | .tup .., h | .struct .., h | .ctor .., h | .call .., h
  | .prim .., h | .mutPrim .., h | .appendFrom .., h | .map .., h | .ite .., h | .match .., h | .block .., h | .let .., h
  | .decl .., h | .assign .., h | .assignOp .., h | .return .., h | .continue, h | .try .., h | .while .., h | .for .., h
  | .forMut .., h | .forMutEnum .., h | .forMutZip .., h => by simp [checkPlace] at h

theorem checkList_sound (hK : Fits S K) : ∀ es, checkList S Γ es = true →
    Rel Γ (List.Forall₂ Low) (evalListT K es) (evalListT K es)
  | [], _ => .pure .nil
  | e :: es, h => by
    simp only [checkList, Bool.and_eq_true] at h
    obtain ⟨l, hl⟩ := isSome_of h.1
    exact .bind ((check_sound hK e).low hl) fun _ _ h1 => .bind (checkList_sound hK es h.2) fun _ _ h2 => .pure (.cons h1 h2)

theorem checkArgs_sound (hK : Fits S K) : ∀ ms ls es, checkArgs S Γ ms ls es = true →
    Rel Γ (ArgsLow Γ ls) (evalArgsT K ms es) (evalArgsT K ms es)
  | [], [], [], _ => .pure .nil
  | .val :: ms, l :: ls, e :: es, h => by
    simp only [checkArgs, Bool.and_eq_true] at h
    obtain ⟨h1, h2⟩ := h
    rcases hc : check S Γ e with _ | l'
    · simp [hc] at h1
    · simp only [hc] at h1
      exact .bind (check_sound hK e _ hc) fun _ _ hv => .bind (checkArgs_sound hK ms ls es h2) fun _ _ hs =>
        .pure (.val (hv.mono h1) hs)
  | .mutRef :: ms, l :: ls, e :: es, h => by
    simp only [checkArgs, Bool.and_eq_true, decide_eq_true_eq] at h
    obtain ⟨⟨rfl, h1⟩, h2⟩ := h
    refine .bind (checkPlace_sound hK e h1) fun p q hp => .bind (checkArgs_sound hK ms ls es h2) fun _ _ hs => ?_
    obtain ⟨rfl, hp⟩ := hp
    exact .pure (.place hp hs)
  | [], _ :: _, _, h => by simp [checkArgs] at h
  | [], [], _ :: _, h => by simp [checkArgs] at h
  | .val :: _, [], _, h => by simp [checkArgs] at h
  | .mutRef :: _, [], _, h => by simp [checkArgs] at h
  | .val :: _, _ :: _, [], h => by simp [checkArgs] at h
  | .mutRef :: _, _ :: _, [], h => by simp [checkArgs] at h

theorem checkMatch_sound (hK : Fits S K) : ∀ ps es, patsAny Γ ps = true → checkList S Γ es = true → ∀ {v w : Val}, Low v w →
    Rel Γ Low (evalMatchT K v ps es) (evalMatchT K w ps es)
  | p :: ps, e :: es, hp, he, v, w, h => by
    simp only [patsAny, Bool.and_eq_true] at hp
    simp only [checkList, Bool.and_eq_true] at he
    obtain ⟨l, hl⟩ := isSome_of he.1
    rw [evalMatchT, evalMatchT]
    have := matchPat_low p hp.1 h
    revert this
    rcases matchPat p v with _ | bs <;> rcases matchPat p w with _ | cs <;> intro this
    · exact .bind (.emit rfl) fun _ _ _ => checkMatch_sound hK ps es hp.2 he.2 h
    · exact this.elim
    · exact this.elim
    · exact .bind (.emit rfl) fun _ _ _ => .inScope (.bind (.quiet (.push this)) fun _ _ _ => (check_sound hK e).low hl)
  | [], _, _, _, v, w, h => by rw [evalMatchT, evalMatchT] <;> first | exact .quiet .stuck | simp
  | _ :: _, [], _, _, v, w, h => by rw [evalMatchT, evalMatchT] <;> first | exact .quiet .stuck | simp

end

end

/-! ### Programs -/

/-- The labels of the variables of a function: those listed, and `any`. -/
def gam (l : List (Id × Lab)) : Gam := fun x => (l.lookup x).getD .any

/-- What the bodies of a program are checked against. `tab f` lists the variables of `f` with labels other than `any`; functions that
are not to be called have no entry. -/
def Program.sec (P : Program) (tab : Fn → Option (List (Id × Lab))) : Sec where
  sig f := (P.fn f).params.map (·.2)
  const c :=
    match P.const c with
    | .int .usize _ => .num
    | _ => .pub
  fn f := (tab f).map fun l => (P.fn f).params.map fun p => gam l p.1

/-- The body of a function passes, and its `&mut` parameters have the label `any`. -/
def Program.passes (P : Program) (tab : Fn → Option (List (Id × Lab))) (f : Fn) : Bool :=
  match tab f with
  | none => true
  | some l =>
    (P.fn f).params.all (fun p => p.2 = .val || gam l p.1 = .any) && (check (P.sec tab) (gam l) (P.fn f).body).isSome

theorem constVal_low (T : Target) (P : Program) (tab : Fn → Option (List (Id × Lab))) (c : Const) :
    RelR (LowL ((P.sec tab).const c)) (constVal T P c) (constVal T P c) := by
  unfold Program.sec
  dsimp only
  split
  · rename_i n h
    unfold constVal
    rw [h]
    exact ⟨rfl, n, rfl⟩
  · exact RelR.refl _ fun _ => rfl

theorem lowLs_env {Γ : Gam} : ∀ (ps : List (Id × Mode)) {vs ws : List Val}, LowLs (ps.map fun p => Γ p.1) vs ws →
    LowEnv Γ ((ps.map (·.1)).zip vs) ((ps.map (·.1)).zip ws)
  | [], _, _, h => by
    cases h
    exact .nil
  | p :: ps, _, _, h => by
    cases h with
    | cons h hs => exact .cons ⟨rfl, h⟩ (lowLs_env ps hs)

theorem outs_low {Γ : Gam} {e f : Env} (h : LowEnv Γ e f) : ∀ (ps : List (Id × Mode)),
    RelR (List.Forall₂ Low) (ps.mapM fun p => getVar p.1 e) (ps.mapM fun p => getVar p.1 f)
  | [] => by
    simp only [List.mapM_nil]
    exact .nil
  | p :: ps => by
    simp only [List.mapM_cons]
    exact RelR.bind (getVar_low (Q := fun x => LowL (Γ x)) h p.1) fun _ _ hv => RelR.bind (outs_low h ps) fun _ _ hs =>
      .cons hv.low hs

/-- A body that passes, run on arguments that agree. -/
theorem runBodyT_low {S : Sec} {K : CtxT} (hK : Fits S K) {l : List (Id × Lab)} {d : FnDef}
    (hb : (check S (gam l) d.body).isSome = true) {vs ws : List Val}
    (h : LowEnv (gam l) ((d.params.map (·.1)).zip vs) ((d.params.map (·.1)).zip ws)) :
    CallLow (runBodyT K d vs) (runBodyT K d ws) := by
  obtain ⟨lb, hlb⟩ := isSome_of hb
  have hb := (check_sound hK d.body).low hlb _ _ h
  refine ⟨hb.1, RelR.bind hb.2 fun c d hc => ?_⟩
  obtain ⟨c, e1⟩ := c
  obtain ⟨d, e2⟩ := d
  have he : LowEnv (gam l) e1 e2 := by
    rcases c with a | v | _ <;> rcases d with b | w | _ <;> first | exact hc.elim | exact hc.2 | exact hc
  refine RelR.bind (outs_low he _) fun os os' hos => ?_
  rcases c with a | v | _ <;> rcases d with b | w | _ <;> first | exact hc.elim | exact ⟨hc.1, hos⟩ | rfl

/-- A function which passes, or is known for another reason to show the same on arguments that agree. -/
def Program.Oblivious (P : Program) (tab : Fn → Option (List (Id × Lab))) (T : Target) (fuel : Nat) (f : Fn) : Prop :=
  P.passes tab f = true ∨ ∀ depth ls vs ws, (P.sec tab).fn f = some ls → LowLs ls vs ws →
    CallLow (callT T P fuel depth f vs) (callT T P fuel depth f ws)

/-- Calls of such functions, with arguments that agree as far as the labels of the parameters say, show the same and have
outcomes that agree. -/
theorem callT_low_of {P : Program} {tab : Fn → Option (List (Id × Lab))} (T : Target) (fuel : Nat)
    (hP : ∀ f, P.Oblivious tab T fuel f) (depth : Nat) (f : Fn) (ls : List Lab) (hf : (P.sec tab).fn f = some ls)
    (vs ws : List Val) (h : LowLs ls vs ws) : CallLow (callT T P fuel depth f vs) (callT T P fuel depth f ws) := by
  induction depth generalizing f ls vs ws with
  | zero => exact ⟨rfl, rfl⟩
  | succ d ih =>
    have hK : Fits (P.sec tab) ⟨T, fuel, constVal T P, fun f => (P.fn f).params.map (·.2), callT T P fuel d⟩ :=
      ⟨rfl, constVal_low T P tab, fun f ls hf vs ws h => ih f ls hf vs ws h⟩
    rcases ht : tab f with _ | l
    · simp [Program.sec, ht] at hf
    · rcases hP f with hp | hp
      swap
      · exact hp (d + 1) ls vs ws hf h
      simp only [Program.sec, ht, Option.map_some, Option.some.injEq] at hf
      subst hf
      simp only [Program.passes, ht, Bool.and_eq_true] at hp
      exact runBodyT_low hK hp.2 (lowLs_env (Γ := gam l) (P.fn f).params h)

theorem zip_any {Γ : Gam} {xs : List Id} (hx : ∀ x ∈ xs, Γ x = .any) {vs ws : List Val} (h : List.Forall₂ Low vs ws) :
    LowEnv Γ (xs.zip vs) (xs.zip ws) := by
  induction h generalizing xs with
  | nil =>
    rw [List.zip_nil_right]
    exact .nil
  | cons h hs ih =>
    rcases xs with _ | ⟨x, xs⟩
    · exact .nil
    · refine .cons ⟨rfl, ?_⟩ (ih fun x h => hx x (by simp [h]))
      show LowL (Γ x) _ _
      rw [hx x (by simp)]
      exact h

/-- Calls of functions whose parameters all have the label `any`, with any number of arguments. -/
theorem callT_any {P : Program} {tab : Fn → Option (List (Id × Lab))} (T : Target) (fuel : Nat)
    (hP : ∀ f, P.Oblivious tab T fuel f) (depth : Nat) (f : Fn) (hp : P.passes tab f = true) (l : List (Id × Lab))
    (hl : tab f = some l) (ha : ∀ p ∈ (P.fn f).params, gam l p.1 = .any) (vs ws : List Val) (h : List.Forall₂ Low vs ws) :
    CallLow (callT T P fuel depth f vs) (callT T P fuel depth f ws) := by
  rcases depth with _ | d
  · exact ⟨rfl, rfl⟩
  · have hK : Fits (P.sec tab) ⟨T, fuel, constVal T P, fun f => (P.fn f).params.map (·.2), callT T P fuel d⟩ :=
      ⟨rfl, constVal_low T P tab, callT_low_of T fuel hP d⟩
    simp only [Program.passes, hl, Bool.and_eq_true] at hp
    refine runBodyT_low hK hp.2 (zip_any (fun x hx => ?_) h)
    obtain ⟨p, hp, rfl⟩ := List.mem_map.1 hx
    exact ha p hp

end Verif.Source
