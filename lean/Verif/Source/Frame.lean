import Verif.Source.Unwind

/-!
Code that does not write to a variable leaves it as it was, whether it panics or not.

`noWrite sig x e` is a syntactic check; `evalU_keeps` is what it guarantees.
-/

set_option linter.constructorNameAsVariable false

namespace Verif.Source
open Verif

/-- The variable a place lies in. -/
def rootOf : Expr → Option Id
  | .var x => some x
  | .field e _ => rootOf e
  | .index e _ => rootOf e
  | .slice e _ _ => rootOf e
  | .sliceTo e _ => rootOf e
  | .sliceFrom e _ => rootOf e
  | _ => none

mutual
/-- Nothing in the expression writes to the variable `x`. -/
def noWrite (sig : Fn → List Mode) (x : Id) : Expr → Bool
  | .int .. | .str .. | .unit | .var .. | .const .. | .decl .. | .continue => true
  | .not e | .cast e _ | .from _ e | .field e _ | .let _ e | .return e | .try e => noWrite sig x e
  | .bin _ a b | .andAlso a b | .index a b | .sliceTo a b | .sliceFrom a b | .range a b | .rangeIncl a b | .repeat a b
  | .map a _ b | .while a b | .for _ a b => noWrite sig x a && noWrite sig x b
  | .slice a b c | .ite a b c => noWrite sig x a && noWrite sig x b && noWrite sig x c
  | .array es | .tup es | .struct _ _ es | .ctor _ es | .prim _ es => noWriteList sig x es
  | .call f es => noWriteArgs sig x (sig f) es
  | .mutPrim _ p es => noWrite sig x p && rootOf p != some x && noWriteList sig x es
  | .appendFrom p q => noWrite sig x p && rootOf p != some x && noWrite sig x q && rootOf q != some x
  | .match e _ es => noWrite sig x e && noWriteList sig x es
  | .block ss e => noWriteList sig x ss && noWrite sig x e
  | .assign p e | .assignOp _ p e | .forMut _ p e | .forMutEnum _ _ p e =>
    noWrite sig x p && rootOf p != some x && noWrite sig x e
  | .forMutZip _ _ p e b => noWrite sig x p && rootOf p != some x && noWrite sig x e && noWrite sig x b

def noWriteList (sig : Fn → List Mode) (x : Id) : List Expr → Bool
  | [] => true
  | e :: es => noWrite sig x e && noWriteList sig x es

/-- The same for arguments: a place passed as `&mut` is written to. -/
def noWriteArgs (sig : Fn → List Mode) (x : Id) : List Mode → List Expr → Bool
  | .mutRef :: ms, e :: es => noWrite sig x e && rootOf e != some x && noWriteArgs sig x ms es
  | .val :: ms, e :: es => noWrite sig x e && noWriteArgs sig x ms es
  | _, _ => true
end

/-- A variable with the same name, and the same value if it is `x`. -/
def SameAt (x : Id) (a b : Id × Val) : Prop := a.1 = b.1 ∧ (a.1 = x → a.2 = b.2)

/-- The same variables, with the same value for those with the name `x`. -/
inductive SameVars (x : Id) : Env → Env → Prop
  | nil : SameVars x [] []
  | cons {a b : Id × Val} {env env' : Env} : SameAt x a b → SameVars x env env' → SameVars x (a :: env) (b :: env')

theorem SameVars.length_eq {x : Id} {a b : Env} (h : SameVars x a b) : a.length = b.length := by
  induction h with
  | nil => rfl
  | cons _ _ ih => simp [ih]

/-- The variables of `env` are still there, below new ones, and those with the name `x` have the same value. -/
def Keeps (x : Id) (env env' : Env) : Prop := ∃ pre tl, env' = pre ++ tl ∧ SameVars x env tl

theorem SameAt.refl (x : Id) (a : Id × Val) : SameAt x a a := ⟨rfl, fun _ => rfl⟩

theorem sameVars_refl (x : Id) (env : Env) : SameVars x env env := by
  induction env with
  | nil => exact .nil
  | cons a env ih => exact .cons (.refl x a) ih

theorem sameVars_trans {x : Id} {a b c : Env} (h : SameVars x a b) (h' : SameVars x b c) :
    SameVars x a c := by
  induction h generalizing c with
  | nil => exact h'
  | cons hab _ ih =>
    cases h' with
    | cons hbc h' => exact .cons ⟨hab.1.trans hbc.1, fun hx => (hab.2 hx).trans (hbc.2 (hab.1 ▸ hx))⟩ (ih h')

theorem sameVars_split {x : Id} {a b c : Env} (h : SameVars x (a ++ b) c) :
    ∃ c1 c2, c = c1 ++ c2 ∧ SameVars x a c1 ∧ SameVars x b c2 := by
  induction a generalizing c with
  | nil => exact ⟨[], c, rfl, .nil, h⟩
  | cons y a ih =>
    cases h with
    | cons hy h =>
      obtain ⟨c1, c2, rfl, h1, h2⟩ := ih h
      exact ⟨_ :: c1, c2, rfl, .cons hy h1, h2⟩

namespace Keeps
variable {x : Id} {a b c : Env}

theorem refl (x : Id) (a : Env) : Keeps x a a := ⟨[], a, rfl, sameVars_refl x a⟩

theorem trans (h : Keeps x a b) (h' : Keeps x b c) : Keeps x a c := by
  obtain ⟨p, t, rfl, h⟩ := h
  obtain ⟨p', t', rfl, h'⟩ := h'
  obtain ⟨c1, c2, rfl, _, h2⟩ := sameVars_split h'
  exact ⟨p' ++ c1, c2, by simp, sameVars_trans h h2⟩

theorem push (bs : List (Id × Val)) (h : Keeps x (bs ++ a) b) : Keeps x a b := by
  obtain ⟨p, t, rfl, h⟩ := h
  obtain ⟨c1, c2, rfl, _, h2⟩ := sameVars_split h
  exact ⟨p ++ c1, c2, by simp, h2⟩

/-- After the new variables have gone. -/
theorem drop (h : Keeps x a b) : Keeps x a (b.drop (b.length - a.length)) := by
  obtain ⟨p, t, rfl, h⟩ := h
  refine ⟨[], t, ?_, h⟩
  have := h.length_eq
  rw [List.length_append, show p.length + t.length - a.length = p.length by omega]
  simp

theorem setVar {y : Id} {v : Val} (hy : y ≠ x) (h : Source.setVar y v a = .ok b) : Keeps x a b := by
  refine ⟨[], b, rfl, ?_⟩
  induction a generalizing b with
  | nil => cases h
  | cons z a ih =>
    obtain ⟨z, w⟩ := z
    rw [Source.setVar] at h
    split at h
    · rename_i e
      cases h
      exact .cons ⟨rfl, fun hz => absurd (e.trans hz) hy⟩ (sameVars_refl x a)
    · rcases hr : Source.setVar y v a with e | a'
      · rw [hr] at h; cases h
      · rw [hr] at h; cases h
        exact .cons (.refl x _) (ih hr)

end Keeps

/-- A step that keeps `x`. -/
def Kp {α : Type} (x : Id) (e : EU α) : Prop := ∀ env, Keeps x env (e env).2

namespace Kp
variable {α β : Type} {x : Id}

theorem pure (a : α) : Kp x (Pure.pure a) := fun env => Keeps.refl x env

theorem hold {e : E α} (h : ∀ env c env', e env = .ok (c, env') → Keeps x env env') : Kp x (Source.hold e) := by
  intro env
  unfold Source.hold
  split
  · rename_i h'; exact h _ _ _ h'
  · exact .refl x env

theorem same {e : E α} (h : ∀ env c env', e env = .ok (c, env') → env' = env) : Kp x (Source.hold e) :=
  hold fun env c env' h' => by rw [h env c env' h']; exact .refl x env

theorem bind {e : EU α} {f : α → EU β} (h : Kp x e) (hf : ∀ a, Kp x (f a)) : Kp x (e >>= f) := by
  intro env
  have := h env
  show Keeps x env (thenU (e env) f).2
  rcases hr : e env with ⟨r | ⟨a | v | _⟩, env'⟩ <;> rw [hr] at this
  · exact this
  · exact this.trans (hf a env')
  · exact this
  · exact this

theorem inScope {e : EU α} (h : Kp x e) : Kp x (inScopeU e) := fun env => (h env).drop

theorem absorb {e : EU Val} (h : Kp x e) : Kp x (absorbU e) := fun env => h env

theorem stuck : Kp x (Source.hold (Source.stuck : E α)) := same fun _ _ _ h => nomatch h

theorem lift (r : R α) : Kp x (Source.hold (Source.lift r)) := same fun env c env' h => by
  unfold Source.lift at h
  cases r with
  | error e => cases h
  | ok a => cases h; rfl

theorem read (p : Path) : Kp x (Source.hold (readPath p)) := same fun env c env' h => by
  rcases Eu.readPath_val p env with ⟨w, hw⟩ | ⟨e, hw⟩ <;> rw [hw] at h <;> cases h
  rfl

theorem ofSeq (v : Val) : Kp x (Source.hold (Source.ofSeq v)) := by
  cases v <;> first | exact stuck | exact same fun _ _ _ h => by cases h; rfl

theorem ofUsize (v : Val) : Kp x (Source.hold (Source.ofUsize v)) := by
  cases v <;> first | exact stuck | exact same fun _ _ _ h => by cases h; rfl

theorem push (bs : List (Id × Val)) : Kp x (Source.hold (Source.push bs)) := hold fun env c env' h => by
  cases h
  exact ⟨bs, env, rfl, sameVars_refl x env⟩

theorem bindPat (p : Pat) (v : Val) : Kp x (Source.hold (Source.bindPat p v)) := by
  unfold Source.bindPat
  split
  · exact push _
  · exact stuck

theorem writePath_keeps {p : Path} {v : Val} {env : Env} {c : Ctl Val} {env' : Env} (hp : p.root ≠ x)
    (h : writePath p v env = .ok (c, env')) : Keeps x env env' := by
  unfold writePath at h
  rcases hg : getVar p.root env with e | w <;> rw [hg] at h
  · cases h
  · replace h : (setAccs w p.accs v >>= fun v' => setVar p.root v' env >>= fun env' => Except.ok (Ctl.val Val.unit, env')) = Except.ok (c, env') := h
    rcases hs : setAccs w p.accs v with e | w' <;> rw [hs] at h
    · cases h
    · replace h : (setVar p.root w' env >>= fun env' => Except.ok (Ctl.val Val.unit, env')) = Except.ok (c, env') := h
      rcases hv : setVar p.root w' env with e | env2 <;> rw [hv] at h
      · cases h
      · cases h
        exact .setVar hp hv

theorem write {p : Path} (v : Val) (hp : p.root ≠ x) : Kp x (Source.hold (writePath p v)) :=
  hold fun _ _ _ h => writePath_keeps hp h

/-- The `&mut` arguments do not lie in `x`. -/
def Outside (x : Id) (as : List Arg) : Prop := ∀ p, Arg.place p ∈ as → p.root ≠ x

theorem writeArgs_keeps {as : List Arg} {outs : List Val} {env : Env} {c : Ctl Val} {env' : Env} (ha : Outside x as)
    (h : writeArgs as outs env = .ok (c, env')) : Keeps x env env' := by
  induction as generalizing outs env with
  | nil =>
    cases outs with
    | nil => cases h; exact .refl x _
    | cons => cases h
  | cons a as ih =>
    have ha' : Outside x as := fun p hp => ha p (List.mem_cons_of_mem _ hp)
    cases a with
    | val v => exact ih ha' h
    | place p =>
      cases outs with
      | nil => cases h
      | cons o os =>
        have h : (writePath p o >>= fun _ => writeArgs as os) env = .ok (c, env') := h
        replace h : (writePath p o env >>= _) = Except.ok (c, env') := h
        rcases Eu.writePath_val p o env with ⟨v, env1, hw⟩ | ⟨e, hw⟩ <;> rw [hw] at h
        · exact (writePath_keeps (ha p List.mem_cons_self) hw).trans (ih ha' h)
        · cases h

theorem callStep (K : CtxU) (f : Fn) (vs : List Val) {as : List Arg} (ha : Outside x as) : Kp x (callStepU K f vs as) := by
  intro env
  unfold callStepU finally_
  dsimp only
  split
  · rename_i h; exact writeArgs_keeps ha h
  · exact .refl x env

theorem readArgs (as : List Arg) : Kp x (Source.hold (Source.readArgs as)) := by
  refine same fun env => ?_
  induction as with
  | nil => intro c env' h; cases h; rfl
  | cons a as ih =>
    intro c env' h
    cases a with
    | val v =>
      replace h : (Source.readArgs as env >>= _) = Except.ok (c, env') := h
      rcases hr : Source.readArgs as env with e | ⟨c1, env1⟩ <;> rw [hr] at h
      · cases h
      · have := ih _ _ hr
        subst this
        cases c1 <;> cases h <;> rfl
    | place p =>
      replace h : (readPath p env >>= _) = Except.ok (c, env') := h
      rcases Eu.readPath_val p env with ⟨w, hw⟩ | ⟨e, hw⟩ <;> rw [hw] at h
      · replace h : (Source.readArgs as env >>= _) = Except.ok (c, env') := h
        rcases hr : Source.readArgs as env with e | ⟨c1, env1⟩ <;> rw [hr] at h
        · cases h
        · have := ih _ _ hr
          subst this
          cases c1 <;> cases h <;> rfl
      · cases h

theorem branch (v : Val) {a b : EU Val} (ha : Kp x a) (hb : Kp x b) : Kp x (branchU v a b) := by
  unfold branchU
  split
  · split
    · exact ha
    · exact hb
  · exact stuck

theorem whileLoop {c body : EU Val} (hc : Kp x c) (hb : Kp x body) (n : Nat) : Kp x (whileLoopU c body n) := by
  induction n with
  | zero => exact same fun _ _ _ h => nomatch h
  | succ n ih => exact bind hc fun v => branch v (bind (absorb (inScope hb)) fun _ => ih) (pure _)

theorem forLoop {step : α → EU Val} (h : ∀ a, Kp x (step a)) (xs : List α) : Kp x (forLoopU step xs) := by
  induction xs with
  | nil => exact pure _
  | cons y xs ih => exact bind (absorb (inScope (h y))) fun _ => ih

theorem mapLoop {step : Val → EU Val} (h : ∀ a, Kp x (step a)) (xs : List Val) : Kp x (mapLoopU step xs) := by
  induction xs with
  | nil => exact pure _
  | cons y xs ih => exact bind (inScope (h y)) fun _ => bind ih fun _ => pure _

theorem mutStep {p : Path} (hp : p.root ≠ x) (y : Id) (bs : List (Id × Val)) {body : EU Val} (h : Kp x body) (k : Nat) :
    Kp x (mutStepU p y bs body k) := by
  refine bind (read _) fun cur env => ?_
  have hb := h ((y, cur) :: bs ++ env)
  have hk : Keeps x env ((body ((y, cur) :: bs ++ env)).2.drop ((body ((y, cur) :: bs ++ env)).2.length - env.length)) :=
    (Keeps.push ((y, cur) :: bs) hb).drop
  unfold elemU finally_
  dsimp only
  split
  · rename_i c env' hw
    rcases hg : getVar y (body ((y, cur) :: bs ++ env)).2 with e | new <;> rw [hg] at hw
    · cases hw
    · exact hk.trans (writePath_keeps (by exact hp) hw)
  · exact hk

end Kp

/-- A place evaluates to a path in the variable it is written with. -/
def Rooted (r : Option Id) (e : EU Path) : Prop := ∀ env p, (e env).1 = .ok (.val p) → some p.root = r

theorem Rooted.bind {α : Type} {r : Option Id} {e : EU α} {f : α → EU Path} (h : ∀ a, Rooted r (f a)) : Rooted r (e >>= f) := by
  intro env p hp
  replace hp : (thenU (e env) f).1 = _ := hp
  rcases he : e env with ⟨r | ⟨a | v | _⟩, env'⟩ <;> rw [he] at hp
  · cases hp
  · exact h a env' p hp
  · cases hp
  · cases hp

theorem Rooted.of {α : Type} {r : Option Id} {e : EU Path} {f : Path → EU α} {x : Id} (hr : Rooted r e) (hx : r ≠ some x)
    (he : Kp x e) (hf : ∀ p : Path, p.root ≠ x → Kp x (f p)) : Kp x (e >>= f) := by
  intro env
  have := he env
  have hp := hr env
  show Keeps x env (thenU (e env) f).2
  rcases h : e env with ⟨r' | ⟨a | v | _⟩, env'⟩ <;> rw [h] at this hp
  · exact this
  · refine this.trans (hf a ?_ env')
    intro ha
    exact hx (by rw [← hp a rfl, ha])
  · exact this
  · exact this

theorem Rooted.push {r : Option Id} {e : EU Path} {f : Path → EU Path} (h : Rooted r e)
    (hf : ∀ p env q, (f p env).1 = .ok (.val q) → q.root = p.root) : Rooted r (e >>= f) := by
  intro env q hq
  replace hq : (thenU (e env) f).1 = _ := hq
  have hp := h env
  rcases he : e env with ⟨r' | ⟨a | v | _⟩, env'⟩ <;> rw [he] at hq hp
  · cases hq
  · rw [hf a env' q hq]; exact hp a rfl
  · cases hq
  · cases hq

theorem bindU_val {α β : Type} {e : EU α} {f : α → EU β} {env : Env} {b : β} (h : ((e >>= f) env).1 = .ok (.val b)) :
    ∃ a env', (f a env').1 = .ok (.val b) := by
  replace h : (thenU (e env) f).1 = _ := h
  rcases he : e env with ⟨r | ⟨a | v | _⟩, env'⟩ <;> rw [he] at h
  · cases h
  · exact ⟨a, env', h⟩
  · cases h
  · cases h

theorem pureU_val {α : Type} {a b : α} {env : Env} (h : ((pure a : EU α) env).1 = .ok (.val b)) : a = b := by
  cases h; rfl

theorem evalPlaceU_root (K : CtxU) : ∀ e, Rooted (rootOf e) (evalPlaceU K e)
  | .var x => by rw [evalPlaceU]; intro env p h; cases h; rfl
  | .field e f => by
    rw [evalPlaceU]
    exact (evalPlaceU_root K e).push fun p env q h => by rw [← pureU_val h]; rfl
  | .index e i => by
    rw [evalPlaceU]
    refine (evalPlaceU_root K e).push fun p env q h => ?_
    obtain ⟨_, _, h⟩ := bindU_val h
    obtain ⟨_, _, h⟩ := bindU_val h
    rw [← pureU_val h]; rfl
  | .slice e lo hi => by
    rw [evalPlaceU]
    refine (evalPlaceU_root K e).push fun p env q h => ?_
    obtain ⟨_, _, h⟩ := bindU_val h
    obtain ⟨_, _, h⟩ := bindU_val h
    obtain ⟨_, _, h⟩ := bindU_val h
    obtain ⟨_, _, h⟩ := bindU_val h
    rw [← pureU_val h]; rfl
  | .sliceTo e hi => by
    rw [evalPlaceU]
    refine (evalPlaceU_root K e).push fun p env q h => ?_
    obtain ⟨_, _, h⟩ := bindU_val h
    obtain ⟨_, _, h⟩ := bindU_val h
    rw [← pureU_val h]; rfl
  | .sliceFrom e lo => by
    rw [evalPlaceU]
    refine (evalPlaceU_root K e).push fun p env q h => ?_
    obtain ⟨_, _, h⟩ := bindU_val h
    obtain ⟨_, _, h⟩ := bindU_val h
    obtain ⟨_, _, h⟩ := bindU_val h
    obtain ⟨_, _, h⟩ := bindU_val h
    rw [← pureU_val h]; rfl
  | .int .. | .str .. | .unit | .const .. | .not .. | .bin .. | .andAlso .. | .cast .. | .from .. | .range .. | .rangeIncl ..
  | .array .. | .repeat .. | .tup .. | .struct .. | .ctor .. | .call .. | .prim .. | .mutPrim .. | .appendFrom .. | .map ..
  | .ite .. | .match .. | .block .. | .let .. | .decl .. | .assign .. | .assignOp .. | .return .. | .continue | .try ..
  | .while .. | .for .. | .forMut .. | .forMutEnum .. | .forMutZip .. => fun _ _ h => nomatch h

/-- The arguments do not lie in `x`. -/
theorem Kp.bindArgs {x : Id} {β : Type} {e : EU (List Arg)} {f : List Arg → EU β}
    (h : ∀ env, Keeps x env (e env).2 ∧ ∀ as, (e env).1 = .ok (.val as) → Kp.Outside x as)
    (hf : ∀ as, Kp.Outside x as → Kp x (f as)) : Kp x (e >>= f) := by
  intro env
  obtain ⟨h1, h2⟩ := h env
  show Keeps x env (thenU (e env) f).2
  rcases he : e env with ⟨r | ⟨a | v | _⟩, env'⟩ <;> rw [he] at h1 h2
  · exact h1
  · exact h1.trans (hf a (h2 a rfl) env')
  · exact h1
  · exact h1

theorem ne_root {x : Id} {e : Expr} (h : (rootOf e != some x) = true) : rootOf e ≠ some x := by
  simpa using h

theorem matchPat_cases {α : Type} {x : Id} (o : Option (List (Id × Val))) {f : List (Id × Val) → EU α} {g : EU α}
    (hf : ∀ bs, Kp x (f bs)) (hg : Kp x g) : Kp x (match o with | some bs => f bs | none => g) := by
  cases o
  · exact hg
  · exact hf _

mutual

theorem evalU_keeps (K : CtxU) (x : Id) : ∀ e, noWrite K.sig x e = true → Kp x (evalU K e)
  | .int t n, _ => by rw [evalU]; exact .pure _
  | .str s, _ => by rw [evalU]; exact .pure _
  | .unit, _ => by rw [evalU]; exact .pure _
  | .var y, _ => by rw [evalU]; exact .read _
  | .const c, _ => by rw [evalU]; exact .lift _
  | .decl y, _ => by rw [evalU]; exact .push _
  | .continue, _ => by rw [evalU]; exact .same fun _ _ _ h => by cases h; rfl
  | .not e, h => by
    simp only [noWrite] at h
    rw [evalU]; exact .bind (evalU_keeps K x e h) fun _ => .lift _
  | .cast e t, h => by
    simp only [noWrite] at h
    rw [evalU]; exact .bind (evalU_keeps K x e h) fun _ => .lift _
  | .«from» t e, h => by
    simp only [noWrite] at h
    rw [evalU]; exact .bind (evalU_keeps K x e h) fun _ => .lift _
  | .field e f, h => by
    simp only [noWrite] at h
    rw [evalU]; exact .bind (evalU_keeps K x e h) fun _ => .lift _
  | .«let» p e, h => by
    simp only [noWrite] at h
    rw [evalU]; exact .bind (evalU_keeps K x e h) fun _ => .bindPat _ _
  | .«return» e, h => by
    simp only [noWrite] at h
    rw [evalU]; exact .bind (evalU_keeps K x e h) fun _ => .same fun _ _ _ h => by cases h; rfl
  | .try e, h => by
    simp only [noWrite] at h
    rw [evalU]
    refine .bind (evalU_keeps K x e h) fun v => ?_
    split
    · exact .pure _
    · exact .same fun _ _ _ h => by cases h; rfl
    · exact .stuck
  | .bin op a b, h => by
    simp only [noWrite, Bool.and_eq_true] at h
    rw [evalU]; exact .bind (evalU_keeps K x a h.1) fun _ => .bind (evalU_keeps K x b h.2) fun _ => .lift _
  | .andAlso a b, h => by
    simp only [noWrite, Bool.and_eq_true] at h
    rw [evalU]; exact .bind (evalU_keeps K x a h.1) fun _ => .branch _ (evalU_keeps K x b h.2) (.pure _)
  | .index a b, h => by
    simp only [noWrite, Bool.and_eq_true] at h
    rw [evalU]; exact .bind (evalU_keeps K x a h.1) fun _ => .bind (evalU_keeps K x b h.2) fun _ => .bind (.ofUsize _) fun _ => .lift _
  | .sliceTo a b, h => by
    simp only [noWrite, Bool.and_eq_true] at h
    rw [evalU]; exact .bind (evalU_keeps K x a h.1) fun _ => .bind (evalU_keeps K x b h.2) fun _ => .bind (.ofUsize _) fun _ => .lift _
  | .sliceFrom a b, h => by
    simp only [noWrite, Bool.and_eq_true] at h
    rw [evalU]; exact .bind (evalU_keeps K x a h.1) fun _ => .bind (evalU_keeps K x b h.2) fun _ => .bind (.ofUsize _) fun _ => .bind (.ofSeq _) fun _ => .lift _
  | .range a b, h => by
    simp only [noWrite, Bool.and_eq_true] at h
    rw [evalU]; exact .bind (evalU_keeps K x a h.1) fun _ => .bind (evalU_keeps K x b h.2) fun _ => .lift _
  | .rangeIncl a b, h => by
    simp only [noWrite, Bool.and_eq_true] at h
    rw [evalU]; exact .bind (evalU_keeps K x a h.1) fun _ => .bind (evalU_keeps K x b h.2) fun _ => .lift _
  | .repeat a b, h => by
    simp only [noWrite, Bool.and_eq_true] at h
    rw [evalU]; exact .bind (evalU_keeps K x a h.1) fun _ => .bind (evalU_keeps K x b h.2) fun _ => .bind (.ofUsize _) fun _ => .pure _
  | .map a p b, h => by
    simp only [noWrite, Bool.and_eq_true] at h
    rw [evalU]; exact .bind (evalU_keeps K x a h.1) fun _ => .bind (.ofSeq _) fun _ => .bind (.mapLoop (fun _ => .bind (.bindPat _ _) fun _ => evalU_keeps K x b h.2) _) fun _ => .pure _
  | .while a b, h => by
    simp only [noWrite, Bool.and_eq_true] at h
    rw [evalU]; exact .whileLoop (evalU_keeps K x a h.1) (evalU_keeps K x b h.2) _
  | .for p a b, h => by
    simp only [noWrite, Bool.and_eq_true] at h
    rw [evalU]; exact .bind (evalU_keeps K x a h.1) fun _ => .bind (.ofSeq _) fun _ => .forLoop (fun _ => .bind (.bindPat _ _) fun _ => evalU_keeps K x b h.2) _
  | .slice a b c, h => by
    simp only [noWrite, Bool.and_eq_true] at h
    rw [evalU]; exact .bind (evalU_keeps K x a h.1.1) fun _ => .bind (evalU_keeps K x b h.1.2) fun _ => .bind (.ofUsize _) fun _ => .bind (evalU_keeps K x c h.2) fun _ => .bind (.ofUsize _) fun _ => .lift _
  | .ite a b c, h => by
    simp only [noWrite, Bool.and_eq_true] at h
    rw [evalU]; exact .bind (evalU_keeps K x a h.1.1) fun _ => .branch _ (evalU_keeps K x b h.1.2) (evalU_keeps K x c h.2)
  | .array es, h => by
    simp only [noWrite] at h
    rw [evalU]; exact .bind (evalListU_keeps K x es h) fun _ => .pure _
  | .tup es, h => by
    simp only [noWrite] at h
    rw [evalU]; exact .bind (evalListU_keeps K x es h) fun _ => .pure _
  | .struct s fs es, h => by
    simp only [noWrite] at h
    rw [evalU]; exact .bind (evalListU_keeps K x es h) fun _ => .pure _
  | .ctor c es, h => by
    simp only [noWrite] at h
    rw [evalU]; exact .bind (evalListU_keeps K x es h) fun _ => .pure _
  | .prim p es, h => by
    simp only [noWrite] at h
    rw [evalU]; exact .bind (evalListU_keeps K x es h) fun _ => .lift _
  | .call f es, h => by
    simp only [noWrite] at h
    rw [evalU]; exact .bindArgs (evalArgsU_keeps K x (K.sig f) es h) fun _ ha => .bind (.readArgs _) fun _ => .callStep K f _ ha
  | .mutPrim p q es, h => by
    simp only [noWrite, Bool.and_eq_true] at h
    rw [evalU]; exact Rooted.of (evalPlaceU_root K q) (ne_root h.1.2) (evalPlaceU_keeps K x q h.1.1) fun _ hp =>
      .bind (.read _) fun _ => .bind (evalListU_keeps K x es h.2) fun _ => .bind (.lift _) fun _ => .bind (.write _ hp) fun _ => .pure _
  | .appendFrom p q, h => by
    simp only [noWrite, Bool.and_eq_true] at h
    rw [evalU]; exact Rooted.of (evalPlaceU_root K p) (ne_root h.1.1.2) (evalPlaceU_keeps K x p h.1.1.1) fun _ hp =>
      Rooted.of (evalPlaceU_root K q) (ne_root h.2) (evalPlaceU_keeps K x q h.1.2) fun _ hq =>
      .bind (.read _) fun _ => .bind (.read _) fun _ => .bind (.lift _) fun _ => .bind (.write _ hp) fun _ => .bind (.write _ hq) fun _ => .pure _
  | .match e ps es, h => by
    simp only [noWrite, Bool.and_eq_true] at h
    rw [evalU]; exact .bind (evalU_keeps K x e h.1) fun _ => evalMatchU_keeps K x _ ps es h.2
  | .block ss e, h => by
    simp only [noWrite, Bool.and_eq_true] at h
    rw [evalU]; exact .inScope <| .bind (evalListU_keeps K x ss h.1) fun _ => evalU_keeps K x e h.2
  | .assign p e, h => by
    simp only [noWrite, Bool.and_eq_true] at h
    rw [evalU]; exact .bind (evalU_keeps K x e h.2) fun _ => Rooted.of (evalPlaceU_root K p) (ne_root h.1.2) (evalPlaceU_keeps K x p h.1.1) fun _ hp => .write _ hp
  | .assignOp op p e, h => by
    simp only [noWrite, Bool.and_eq_true] at h
    rw [evalU]; exact .bind (evalU_keeps K x e h.2) fun _ => Rooted.of (evalPlaceU_root K p) (ne_root h.1.2) (evalPlaceU_keeps K x p h.1.1) fun _ hp =>
      .bind (.read _) fun _ => .bind (.lift _) fun _ => .write _ hp
  | .forMut y p e, h => by
    simp only [noWrite, Bool.and_eq_true] at h
    rw [evalU]; exact Rooted.of (evalPlaceU_root K p) (ne_root h.1.2) (evalPlaceU_keeps K x p h.1.1) fun _ hp =>
      .bind (.read _) fun _ => .bind (.ofSeq _) fun _ => .forLoop (fun _ => .mutStep hp _ _ (evalU_keeps K x e h.2) _) _
  | .forMutEnum i y p e, h => by
    simp only [noWrite, Bool.and_eq_true] at h
    rw [evalU]; exact Rooted.of (evalPlaceU_root K p) (ne_root h.1.2) (evalPlaceU_keeps K x p h.1.1) fun _ hp =>
      .bind (.read _) fun _ => .bind (.ofSeq _) fun _ => .forLoop (fun _ => .mutStep hp _ _ (evalU_keeps K x e h.2) _) _
  | .forMutZip y pat p e b, h => by
    simp only [noWrite, Bool.and_eq_true] at h
    rw [evalU]; exact Rooted.of (evalPlaceU_root K p) (ne_root h.1.1.2) (evalPlaceU_keeps K x p h.1.1.1) fun _ hp =>
      .bind (.read _) fun _ => .bind (.ofSeq _) fun _ => .bind (evalU_keeps K x e h.1.2) fun _ => .bind (.ofSeq _) fun _ =>
      .forLoop (fun ky => matchPat_cases _ (fun _ => .mutStep hp _ _ (evalU_keeps K x b h.2) _) .stuck) _

theorem evalPlaceU_keeps (K : CtxU) (x : Id) : ∀ e, noWrite K.sig x e = true → Kp x (evalPlaceU K e)
  | .var y, _ => by rw [evalPlaceU]; exact .pure _
  | .field e f, h => by
    simp only [noWrite] at h
    rw [evalPlaceU]; exact .bind (evalPlaceU_keeps K x e h) fun _ => .pure _
  | .index a b, h => by
    simp only [noWrite, Bool.and_eq_true] at h
    rw [evalPlaceU]; exact .bind (evalPlaceU_keeps K x a h.1) fun _ => .bind (evalU_keeps K x b h.2) fun _ =>
      .bind (.ofUsize _) fun _ => .pure _
  | .slice a b c, h => by
    simp only [noWrite, Bool.and_eq_true] at h
    rw [evalPlaceU]; exact .bind (evalPlaceU_keeps K x a h.1.1) fun _ => .bind (evalU_keeps K x b h.1.2) fun _ =>
      .bind (.ofUsize _) fun _ => .bind (evalU_keeps K x c h.2) fun _ => .bind (.ofUsize _) fun _ => .pure _
  | .sliceTo a b, h => by
    simp only [noWrite, Bool.and_eq_true] at h
    rw [evalPlaceU]; exact .bind (evalPlaceU_keeps K x a h.1) fun _ => .bind (evalU_keeps K x b h.2) fun _ =>
      .bind (.ofUsize _) fun _ => .pure _
  | .sliceFrom a b, h => by
    simp only [noWrite, Bool.and_eq_true] at h
    rw [evalPlaceU]; exact .bind (evalPlaceU_keeps K x a h.1) fun _ => .bind (evalU_keeps K x b h.2) fun _ =>
      .bind (.ofUsize _) fun _ => .bind (.read _) fun _ => .bind (.ofSeq _) fun _ => .pure _
  | .int .., _ | .str .., _ | .unit, _ | .const .., _ | .not .., _ | .bin .., _ | .andAlso .., _ | .cast .., _ | .from .., _
  | .range .., _ | .rangeIncl .., _ | .array .., _ | .repeat .., _ | .tup .., _ | .struct .., _ | .ctor .., _ | .call .., _
  | .prim .., _ | .mutPrim .., _ | .appendFrom .., _ | .map .., _ | .ite .., _ | .match .., _ | .block .., _ | .let .., _
  | .decl .., _ | .assign .., _ | .assignOp .., _ | .return .., _ | .continue, _ | .try .., _ | .while .., _ | .for .., _
  | .forMut .., _ | .forMutEnum .., _ | .forMutZip .., _ => .stuck

theorem evalListU_keeps (K : CtxU) (x : Id) : ∀ es, noWriteList K.sig x es = true → Kp x (evalListU K es)
  | [], _ => by rw [evalListU]; exact .pure _
  | e :: es, h => by
    simp only [noWriteList, Bool.and_eq_true] at h
    rw [evalListU]; exact .bind (evalU_keeps K x e h.1) fun _ => .bind (evalListU_keeps K x es h.2) fun _ => .pure _

theorem evalArgsU_keeps (K : CtxU) (x : Id) : ∀ ms es, noWriteArgs K.sig x ms es = true → ∀ env,
    Keeps x env (evalArgsU K ms es env).2 ∧ ∀ as, (evalArgsU K ms es env).1 = .ok (.val as) → Kp.Outside x as
  | [], [], _, env => by
    rw [evalArgsU]
    exact ⟨.refl x env, fun as h => by cases h; intro p hp; cases hp⟩
  | .val :: ms, e :: es, h, env => by
    simp only [noWriteArgs, Bool.and_eq_true] at h
    have h1 := evalU_keeps K x e h.1 env
    rw [evalArgsU]
    show Keeps x env (thenU (evalU K e env) _).2 ∧ ∀ as, (thenU (evalU K e env) _).1 = _ → _
    rcases he : evalU K e env with ⟨r | ⟨a | v | _⟩, env'⟩ <;> rw [he] at h1
    · exact ⟨h1, fun _ h => nomatch h⟩
    · obtain ⟨h2, h3⟩ := evalArgsU_keeps K x ms es h.2 env'
      show Keeps x env (thenU (evalArgsU K ms es env') _).2 ∧ ∀ as, (thenU (evalArgsU K ms es env') _).1 = _ → _
      rcases ha : evalArgsU K ms es env' with ⟨r | ⟨as | v | _⟩, env''⟩ <;> rw [ha] at h2 h3
      · exact ⟨h1.trans h2, fun _ h => nomatch h⟩
      · refine ⟨h1.trans h2, fun as' h => ?_⟩
        cases h
        intro p hp
        cases hp with
        | tail _ hp => exact h3 as rfl p hp
      · exact ⟨h1.trans h2, fun _ h => nomatch h⟩
      · exact ⟨h1.trans h2, fun _ h => nomatch h⟩
    · exact ⟨h1, fun _ h => nomatch h⟩
    · exact ⟨h1, fun _ h => nomatch h⟩
  | .mutRef :: ms, e :: es, h, env => by
    simp only [noWriteArgs, Bool.and_eq_true] at h
    have h1 := evalPlaceU_keeps K x e h.1.1 env
    have hr := evalPlaceU_root K e env
    rw [evalArgsU]
    show Keeps x env (thenU (evalPlaceU K e env) _).2 ∧ ∀ as, (thenU (evalPlaceU K e env) _).1 = _ → _
    rcases he : evalPlaceU K e env with ⟨r | ⟨a | v | _⟩, env'⟩ <;> rw [he] at h1 hr
    · exact ⟨h1, fun _ h => nomatch h⟩
    · obtain ⟨h2, h3⟩ := evalArgsU_keeps K x ms es h.2 env'
      show Keeps x env (thenU (evalArgsU K ms es env') _).2 ∧ ∀ as, (thenU (evalArgsU K ms es env') _).1 = _ → _
      rcases ha : evalArgsU K ms es env' with ⟨r | ⟨as | v | _⟩, env''⟩ <;> rw [ha] at h2 h3
      · exact ⟨h1.trans h2, fun _ h => nomatch h⟩
      · refine ⟨h1.trans h2, fun as' h' => ?_⟩
        cases h'
        intro p hp
        cases hp with
        | head => intro hx; exact ne_root h.1.2 (by rw [← hr _ rfl, hx])
        | tail _ hp => exact h3 as rfl p hp
      · exact ⟨h1.trans h2, fun _ h => nomatch h⟩
      · exact ⟨h1.trans h2, fun _ h => nomatch h⟩
    · exact ⟨h1, fun _ h => nomatch h⟩
    · exact ⟨h1, fun _ h => nomatch h⟩
  | [], _ :: _, _, env => ⟨.refl x env, fun _ h => nomatch h⟩
  | .val :: _, [], _, env => ⟨.refl x env, fun _ h => nomatch h⟩
  | .mutRef :: _, [], _, env => ⟨.refl x env, fun _ h => nomatch h⟩

theorem evalMatchU_keeps (K : CtxU) (x : Id) (v : Val) : ∀ ps es, noWriteList K.sig x es = true → Kp x (evalMatchU K v ps es)
  | p :: ps, e :: es, h => by
    simp only [noWriteList, Bool.and_eq_true] at h
    rw [evalMatchU]
    exact matchPat_cases _ (fun _ => .inScope <| .bind (.push _) fun _ => evalU_keeps K x e h.1) (evalMatchU_keeps K x v ps es h.2)
  | [], _, _ => by rw [evalMatchU] <;> first | exact .stuck | simp
  | _ :: _, [], _ => by rw [evalMatchU] <;> first | exact .stuck | simp

end

end Verif.Source
