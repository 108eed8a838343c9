import Verif.Source.Frame
import Verif.Source.Sig

/-! What panics leave behind, from the outcomes `Semantics.lean` gives for the parts that do not panic. -/

set_option linter.constructorNameAsVariable false
set_option backward.isDefEq.respectTransparency false

namespace Verif.Source
open Verif

/-- The context in which the body of a function called at depth `d + 1` is evaluated. -/
def ctxU (T : Target) (F d : Nat) : CtxU where
  T := T
  fuel := F
  const := constVal T crate
  sig f := (crate.fn f).params.map (·.2)
  call := callU T crate F d

theorem ctxU_erase (T : Target) (F d : Nat) : (ctxU T F d).erase = ctx T F d := by
  show Ctx.mk _ _ _ _ _ = Ctx.mk _ _ _ _ _
  congr 1
  funext f vs
  exact callU_erase T crate F d f vs

theorem callU_body (T : Target) (F d : Nat) (f : Fn) (args : List Val) :
    callU T crate F (d + 1) f args = runBodyU (ctxU T F d) (crate.fn f) args := rfl

theorem runBodyU_eq {K : CtxU} {d : FnDef} {args : List Val} {r : R (Ctl Val)} {env : Env} {outs : List Val}
    (h : evalU K d.body ((d.params.map (·.1)).zip args) = (r, env))
    (ho : ((d.params.filter (·.2 = .mutRef)).mapM fun p => getVar p.1 env) = .ok outs) :
    runBodyU K d args = (result r, outs) := by
  unfold runBodyU
  rw [h]
  simp only [ho]

theorem callU_eq (T : Target) (F d : Nat) (f : Fn) {D : FnDef} (hf : crate.fn f = D) {args : List Val} {r : R (Ctl Val)} {env : Env}
    {outs : List Val} (h : evalU (ctxU T F d) D.body ((D.params.map (·.1)).zip args) = (r, env))
    (ho : ((D.params.filter (·.2 = .mutRef)).mapM fun p => getVar p.1 env) = .ok outs) :
    callU T crate F (d + 1) f args = (result r, outs) := by
  subst hf
  exact runBodyU_eq h ho

theorem shown_ok {α σ : Type} {x : R α × σ} {a : α} {s : σ} (h : shown x = .ok (a, s)) : x = (.ok a, s) := by
  rcases x with ⟨e | b, s'⟩
  · cases h
  · cases h; rfl

theorem shown_error {α σ : Type} {x : R α × σ} {e : Err} (h : shown x = .error e) : x.1 = .error e := by
  rcases x with ⟨e | b, s'⟩
  · cases h; rfl
  · cases h

/-- Where nothing panics, nothing is different. -/
theorem Eu.ok {α : Type} {x : EU α} {y : E α} (h : Eu x y) {env env' : Env} {c : Ctl α} (hy : y env = .ok (c, env')) :
    x env = (.ok c, env') := shown_ok (by rw [h env, hy])

theorem Eu.error {α : Type} {x : EU α} {y : E α} (h : Eu x y) {env : Env} {e : Err} (hy : y env = .error e) :
    (x env).1 = .error e := shown_error (by rw [h env, hy])

theorem callU_ok {T : Target} {P : Program} {F d : Nat} {f : Fn} {args : List Val} {v : Val} {outs : List Val}
    (h : call T P F d f args = .ok (v, outs)) : callU T P F d f args = (.ok v, outs) :=
  shown_ok (by rw [callU_erase, h])

theorem callU_error {T : Target} {P : Program} {F d : Nat} {f : Fn} {args : List Val} {e : Err}
    (h : call T P F d f args = .error e) : (callU T P F d f args).1 = .error e :=
  shown_error (by rw [callU_erase, h])

section
variable (K : CtxU)

theorem evalU_ok {e : Expr} {env env' : Env} {c : Ctl Val} (h : eval K.erase e env = .ok (c, env')) :
    evalU K e env = (.ok c, env') := (evalU_erase K e).ok h

theorem evalU_error {e : Expr} {env : Env} {er : Err} (h : eval K.erase e env = .error er) :
    (evalU K e env).1 = .error er := (evalU_erase K e).error h

/-- Statements and a last expression, in order. -/
def evalSeqU (K : CtxU) : List Expr → Expr → EU Val
  | [], e => evalU K e
  | s :: ss, e => evalU K s >>= fun _ => evalSeqU K ss e

theorem evalSeqU_eq (ss : List Expr) (e : Expr) : evalSeqU K ss e = (evalListU K ss >>= fun _ => evalU K e) := by
  induction ss with
  | nil => rw [evalListU]; rfl
  | cons s ss ih =>
    funext env
    rw [evalListU, evalSeqU, ih]
    show thenU (evalU K s env) _ = thenU (thenU (evalU K s env) _) _
    rcases evalU K s env with ⟨er | ⟨a | v | _⟩, env'⟩
    · rfl
    · show thenU (evalListU K ss env') _ = thenU (thenU (evalListU K ss env') _) _
      rcases evalListU K ss env' with ⟨er | ⟨a | v | _⟩, env''⟩ <;> rfl
    · rfl
    · rfl

theorem evalU_block (ss : List Expr) (e : Expr) : evalU K (.block ss e) = inScopeU (evalSeqU K ss e) := by
  rw [evalU, evalSeqU_eq]

/-- A block whose first statements go well and the next one does not. -/
theorem evalSeqU_panics {pre : List Expr} {mid : Expr} {post : List Expr} {e : Expr} {env env1 env2 : Env} {v : Val} {er : Err}
    (h1 : evalSeq K.erase pre .unit env = .ok (.val v, env1)) (h2 : evalU K mid env1 = (.error er, env2)) :
    evalSeqU K (pre ++ mid :: post) e env = (.error er, env2) := by
  induction pre generalizing env with
  | nil =>
    rw [evalSeq, eval] at h1
    cases h1
    show thenU (evalU K mid _) _ = _
    rw [h2]; rfl
  | cons s ss ih =>
    rw [evalSeq_cons] at h1
    show thenU (evalU K s env) _ = _
    rcases hs : eval K.erase s env with er' | ⟨a | w | _, env'⟩ <;> rw [hs] at h1
    · cases h1
    · rw [evalU_ok K hs]
      exact ih h1
    · cases h1
    · cases h1

theorem evalU_block_panics {pre : List Expr} {mid : Expr} {post : List Expr} {e : Expr} {env env1 env2 : Env} {v : Val} {er : Err}
    (h1 : evalSeq K.erase pre .unit env = .ok (.val v, env1)) (h2 : evalU K mid env1 = (.error er, env2)) :
    evalU K (.block (pre ++ mid :: post) e) env = (.error er, env2.drop (env2.length - env.length)) := by
  rw [evalU_block]
  unfold inScopeU
  rw [evalSeqU_panics K h1 h2]

/-- A block whose statements go well and the last expression does not. -/
theorem evalU_block_panics_last {ss : List Expr} {e : Expr} {env env1 env2 : Env} {v : Val} {er : Err}
    (h1 : evalSeq K.erase ss .unit env = .ok (.val v, env1)) (h2 : evalU K e env1 = (.error er, env2)) :
    evalU K (.block ss e) env = (.error er, env2.drop (env2.length - env.length)) := by
  rw [evalU_block]
  unfold inScopeU
  have : evalSeqU K ss e env = (.error er, env2) := by
    induction ss generalizing env with
    | nil =>
      rw [evalSeq, eval] at h1
      cases h1
      exact h2
    | cons s ss ih =>
      rw [evalSeq_cons] at h1
      show thenU (evalU K s env) _ = _
      rcases hs : eval K.erase s env with er' | ⟨a | w | _, env'⟩ <;> rw [hs] at h1
      · cases h1
      · rw [evalU_ok K hs]
        exact ih h1
      · cases h1
      · cases h1
  rw [this]

end

theorem evalU_for (K : CtxU) (p : Pat) (e body : Expr) {env env' : Env} {xs : List Val}
    (h : eval K.erase e env = .ok (.val (.seq xs), env')) :
    evalU K (.for p e body) env = forLoopU (fun x => hold (bindPat p x) >>= fun _ => evalU K body) xs env' := by
  rw [evalU]
  show thenU (evalU K e env) _ = _
  rw [evalU_ok K h]
  rfl

theorem evalSeqU_cons (K : CtxU) {s : Expr} {ss : List Expr} {e : Expr} {env env' : Env} {v : Val}
    (h : eval K.erase s env = .ok (.val v, env')) : evalSeqU K (s :: ss) e env = evalSeqU K ss e env' := by
  show thenU (evalU K s env) _ = _
  rw [evalU_ok K h]
  rfl

theorem evalSeqU_nil (K : CtxU) (e : Expr) (env : Env) : evalSeqU K [] e env = evalU K e env := rfl

theorem forLoopU_map {α β : Type} (f : α → β) (step : β → EU Val) (xs : List α) :
    forLoopU step (xs.map f) = forLoopU (fun x => step (f x)) xs := by
  induction xs with
  | nil => rfl
  | cons x xs ih => rw [List.map_cons, forLoopU, ih]; rfl

/-- The value of a variable that has been kept, after the new variables have gone. -/
theorem Keeps.getVar {x : Id} {a b : Env} (h : Keeps x a b) (hl : b.length = a.length) : getVar x b = getVar x a := by
  obtain ⟨p, t, rfl, h⟩ := h
  have hp : p = [] := by
    have := h.length_eq
    rw [List.length_append] at hl
    exact List.length_eq_zero_iff.mp (by omega)
  subst hp
  clear hl
  show Source.getVar x t = _
  induction h with
  | nil => rfl
  | cons hab _ ih =>
    rename_i a b _ _ _
    obtain ⟨a, v⟩ := a
    obtain ⟨b, w⟩ := b
    obtain ⟨h1, h2⟩ := hab
    simp only at h1 h2
    subst h1
    rw [Source.getVar, Source.getVar]
    split
    · rename_i e; rw [h2 e.symm]
    · exact ih

theorem Keeps.le {x : Id} {a b : Env} (h : Keeps x a b) : a.length ≤ b.length := by
  obtain ⟨p, t, rfl, h⟩ := h
  rw [List.length_append, ← h.length_eq]; omega

/-- A loop whose rounds are those of a model loop; after a panic in a round, something of which `Q` holds is left. -/
theorem forLoopU_model {α σ : Type} {step : α → EU Val} (env : σ → Env) (Inv : σ → Prop) (Q : Panic → σ → Prop) (body : α → σ → M σ) (xs : List α)
    (h : ∀ x ∈ xs, ∀ s, Inv s → match body x s with
      | .ok s' => absorbU (inScopeU (step x)) (env s) = (.ok (.val .unit), env s') ∧ Inv s'
      | .error p => ∃ l, absorbU (inScopeU (step x)) (env s) = (.error (.panic p), env l) ∧ Q p l) (s : σ) (h0 : Inv s) :
    match forEach xs s body with
    | .ok s' => forLoopU step xs (env s) = (.ok (.val .unit), env s') ∧ Inv s'
    | .error p => ∃ l, forLoopU step xs (env s) = (.error (.panic p), env l) ∧ Q p l := by
  induction xs generalizing s with
  | nil => exact ⟨rfl, h0⟩
  | cons x xs ih =>
    have hx := h x (by simp) s h0
    simp only [forEach, List.foldlM_cons]
    show match (body x s >>= fun s' => forEach xs s' body) with
      | .ok s' => thenU (absorbU (inScopeU (step x)) (env s)) (fun _ => forLoopU step xs) = (.ok (.val .unit), env s') ∧ Inv s'
      | .error p => ∃ l, thenU (absorbU (inScopeU (step x)) (env s)) (fun _ => forLoopU step xs) = (.error (.panic p), env l) ∧ Q p l
    rcases hb : body x s with p | s'
    · rw [hb] at hx
      obtain ⟨l, h1, h2⟩ := hx
      exact ⟨l, by rw [h1]; rfl, h2⟩
    · rw [hb] at hx
      obtain ⟨h1, h2⟩ := hx
      rw [h1]
      exact ih (fun y hy => h y (List.mem_cons_of_mem _ hy)) s' h2

end Verif.Source
