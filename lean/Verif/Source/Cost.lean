import Verif.Source.TraceLemmas

/-!
How often a function is called in the course of an execution: the number of its events in the trace.

`avoids S e` is a syntactic check that the expression calls functions of `S` only; `Program.closed` extends it to the functions
of `S`. Where it holds, a function outside `S` is never called (`callT_avoids`).
-/

set_option linter.constructorNameAsVariable false
set_option backward.isDefEq.respectTransparency false

namespace Verif.Source
open Verif

/-- The event is a call of `g`. -/
def Event.isCall (g : Fn) : Event → Bool
  | .call f => f = g
  | _ => false

/-- The number of calls of `g` in a trace. -/
def calls (g : Fn) (t : Trace) : Nat := t.countP (Event.isCall g)

section
variable {g : Fn}
@[simp] theorem calls_nil : calls g [] = 0 := rfl
theorem calls_append (s t : Trace) : calls g (s ++ t) = calls g s + calls g t := List.countP_append
theorem calls_cons (e : Event) (t : Trace) : calls g (e :: t) = calls g t + if e.isCall g then 1 else 0 := List.countP_cons
theorem calls_flatMap {α : Type} (xs : List α) (t : α → Trace) (c : Nat) (h : ∀ x ∈ xs, calls g (t x) = c) :
    calls g (xs.flatMap t) = xs.length * c := by
  induction xs with
  | nil => simp
  | cons x xs ih =>
    rw [List.flatMap_cons, calls_append, h x (by simp), ih fun y hy => h y (by simp [hy]), List.length_cons, Nat.succ_mul]
    omega
theorem calls_after {α : Type} (x : R (Ctl α × Env)) (k : α → Env → Trace) (h : ∀ a env, calls g (k a env) = 0) :
    calls g (after x k) = 0 := by
  rcases x with e | ⟨a | v | _, env⟩ <;> first | rfl | exact h _ _
end

/-- The evaluation calls `g` nowhere. -/
def Zero (g : Fn) {α : Type} (x : ET α) : Prop := ∀ env, calls g (x env).1 = 0

namespace Zero
variable {g : Fn} {α β : Type}

theorem pure (a : α) : Zero g (Pure.pure a : ET α) := fun _ => rfl
theorem quiet (x : E α) : Zero g (Source.quiet x) := fun _ => rfl

theorem bind {x : ET α} {f : α → ET β} (h : Zero g x) (hf : ∀ a, Zero g (f a)) : Zero g (x >>= f) := by
  intro env
  rw [bindT_trace, calls_append, h env, calls_after _ _ fun a env => hf a env]

theorem emit {t : Trace} (ht : calls g t = 0) {x : ET α} (h : Zero g x) : Zero g (Source.emit t >>= fun _ => x) := by
  refine bind (fun env => ?_) fun _ => h
  exact ht

theorem inScope {x : ET α} (h : Zero g x) : Zero g (inScopeT x) := h

theorem branch (v : Val) {a b : ET Val} (ha : Zero g a) (hb : Zero g b) : Zero g (branchT v a b) := by
  unfold branchT
  split
  · split
    · exact emit rfl ha
    · exact emit rfl hb
  · exact quiet _

theorem absorb {x : ET Val} (h : Zero g x) : Zero g (absorbT x) := h

theorem whileLoop {c body : ET Val} (hc : Zero g c) (hb : Zero g body) (n : Nat) : Zero g (whileLoopT c body n) := by
  induction n with
  | zero => exact quiet _
  | succ n ih => exact bind hc fun v => branch v (bind (absorb (inScope hb)) fun _ => ih) (pure _)

theorem forLoop {step : α → ET Val} (h : ∀ a, Zero g (step a)) (xs : List α) : Zero g (forLoopT step xs) := by
  induction xs with
  | nil => exact pure _
  | cons x xs ih => exact bind (absorb (inScope (h x))) fun _ => ih

theorem mutStep (p : Path) (x : Id) (bs : List (Id × Val)) {body : ET Val} (h : Zero g body) (k : Nat) :
    Zero g (mutStepT p x bs body k) := bind (quiet _) fun _ _ => h _

theorem mapLoop {step : Val → ET Val} (h : ∀ a, Zero g (step a)) (xs : List Val) : Zero g (mapLoopT step xs) := by
  induction xs with
  | nil => exact pure _
  | cons x xs ih => exact bind (inScope (h x)) fun y => bind ih fun ys => pure _

theorem binLeak (op : BinOp) (a b : Val) : calls g (binLeak op a b) = 0 := by
  unfold Source.binLeak
  split <;> try rfl
  all_goals split <;> rfl

end Zero

mutual
/-- Every function the expression calls is in `S`. -/
def avoids (S : Fn → Bool) : Expr → Bool
  | .int .. | .str .. | .unit | .var .. | .const .. | .decl .. | .continue => true
  | .not e | .cast e _ | .from _ e | .field e _ | .let _ e | .return e | .try e => avoids S e
  | .bin _ a b | .andAlso a b | .index a b | .sliceTo a b | .sliceFrom a b | .range a b | .rangeIncl a b | .repeat a b
  | .map a _ b | .while a b | .for _ a b => avoids S a && avoids S b
  | .slice a b c | .ite a b c => avoids S a && avoids S b && avoids S c
  | .array es | .tup es | .struct _ _ es | .ctor _ es | .prim _ es => avoidsList S es
  | .call f es => S f && avoidsList S es
  | .mutPrim _ p es => avoids S p && avoidsList S es
  | .appendFrom p q => avoids S p && avoids S q
  | .match e _ es => avoids S e && avoidsList S es
  | .block ss e => avoidsList S ss && avoids S e
  | .assign p e | .assignOp _ p e | .forMut _ p e | .forMutEnum _ _ p e => avoids S p && avoids S e
  | .forMutZip _ _ p e b => avoids S p && avoids S e && avoids S b

def avoidsList (S : Fn → Bool) : List Expr → Bool
  | [] => true
  | e :: es => avoids S e && avoidsList S es
end

/-- One step of a proof of `Zero`. -/
macro "zero_step" : tactic => `(tactic| first
  | exact Zero.pure _
  | exact Zero.quiet _
  | refine Zero.emit (Zero.binLeak _ _ _) ?_
  | refine Zero.emit rfl ?_
  | refine Zero.bind ?_ fun _ => ?_
  | refine Zero.inScope ?_
  | refine Zero.branch _ ?_ ?_)

section
variable {S : Fn → Bool} {g : Fn} {K : CtxT}

theorem callStep_zero (hK : ∀ f vs, S f = true → f ≠ g ∧ calls g (K.call f vs).1 = 0) {f : Fn} (hf : S f = true) (vs : List Val) :
    Zero g (callStep K f vs) := by
  intro env
  obtain ⟨h1, h2⟩ := hK f vs hf
  show calls g (.call f :: (K.call f vs).1) = 0
  rw [calls_cons, h2]
  simp [Event.isCall, h1]

mutual

theorem evalT_zero (hK : ∀ f vs, S f = true → f ≠ g ∧ calls g (K.call f vs).1 = 0) : ∀ e, avoids S e = true → Zero g (evalT K e)
  | .int t n, _ => by rw [evalT]; repeat zero_step
  | .str s, _ => by rw [evalT]; repeat zero_step
  | .unit, _ => by rw [evalT]; repeat zero_step
  | .var x, _ => by rw [evalT]; repeat zero_step
  | .const c, _ => by rw [evalT]; repeat zero_step
  | .not e, h => by rw [evalT]; exact .bind (evalT_zero hK e h) fun _ => by repeat zero_step
  | .bin op a b, h => by
    rw [avoids, Bool.and_eq_true] at h
    rw [evalT]
    exact .bind (evalT_zero hK a h.1) fun _ => .bind (evalT_zero hK b h.2) fun _ => by repeat zero_step
  | .andAlso a b, h => by
    rw [avoids, Bool.and_eq_true] at h
    rw [evalT]
    exact .bind (evalT_zero hK a h.1) fun _ => .branch _ (evalT_zero hK b h.2) (.pure _)
  | .cast e t, h => by rw [evalT]; exact .bind (evalT_zero hK e h) fun _ => by repeat zero_step
  | .from t e, h => by rw [evalT]; exact .bind (evalT_zero hK e h) fun _ => by repeat zero_step
  | .field e f, h => by rw [evalT]; exact .bind (evalT_zero hK e h) fun _ => by repeat zero_step
  | .index e i, h => by
    rw [avoids, Bool.and_eq_true] at h
    rw [evalT]
    exact .bind (evalT_zero hK e h.1) fun _ => .bind (evalT_zero hK i h.2) fun _ => by repeat zero_step
  | .slice e lo hi, h => by
    rw [avoids, Bool.and_eq_true, Bool.and_eq_true] at h
    rw [evalT]
    exact .bind (evalT_zero hK e h.1.1) fun _ => .bind (evalT_zero hK lo h.1.2) fun _ => .bind (.quiet _) fun _ =>
      .bind (evalT_zero hK hi h.2) fun _ => by repeat zero_step
  | .sliceTo e hi, h => by
    rw [avoids, Bool.and_eq_true] at h
    rw [evalT]
    exact .bind (evalT_zero hK e h.1) fun _ => .bind (evalT_zero hK hi h.2) fun _ => by repeat zero_step
  | .sliceFrom e lo, h => by
    rw [avoids, Bool.and_eq_true] at h
    rw [evalT]
    exact .bind (evalT_zero hK e h.1) fun _ => .bind (evalT_zero hK lo h.2) fun _ => by repeat zero_step
  | .range lo hi, h => by
    rw [avoids, Bool.and_eq_true] at h
    rw [evalT]
    exact .bind (evalT_zero hK lo h.1) fun _ => .bind (evalT_zero hK hi h.2) fun _ => by repeat zero_step
  | .rangeIncl lo hi, h => by
    rw [avoids, Bool.and_eq_true] at h
    rw [evalT]
    exact .bind (evalT_zero hK lo h.1) fun _ => .bind (evalT_zero hK hi h.2) fun _ => by repeat zero_step
  | .array es, h => by rw [evalT]; exact .bind (evalListT_zero hK es h) fun _ => by repeat zero_step
  | .repeat e n, h => by
    rw [avoids, Bool.and_eq_true] at h
    rw [evalT]
    exact .bind (evalT_zero hK e h.1) fun _ => .bind (evalT_zero hK n h.2) fun _ => by repeat zero_step
  | .tup es, h => by rw [evalT]; exact .bind (evalListT_zero hK es h) fun _ => by repeat zero_step
  | .struct s fs es, h => by rw [evalT]; exact .bind (evalListT_zero hK es h) fun _ => by repeat zero_step
  | .ctor c es, h => by rw [evalT]; exact .bind (evalListT_zero hK es h) fun _ => by repeat zero_step
  | .call f args, h => by
    rw [avoids, Bool.and_eq_true] at h
    rw [evalT]
    exact .bind (evalArgsT_zero hK (K.sig f) args h.2) fun _ => .bind (.quiet _) fun _ => .bind (callStep_zero hK h.1 _) fun _ => by
      repeat zero_step
  | .prim p args, h => by rw [evalT]; exact .bind (evalListT_zero hK args h) fun _ => by repeat zero_step
  | .mutPrim p x args, h => by
    rw [avoids, Bool.and_eq_true] at h
    rw [evalT]
    exact .bind (evalPlaceT_zero hK x h.1) fun _ => .bind (.quiet _) fun _ =>
      .bind (evalListT_zero hK args h.2) fun _ => by repeat zero_step
  | .appendFrom x y, h => by
    rw [avoids, Bool.and_eq_true] at h
    rw [evalT]
    exact .bind (evalPlaceT_zero hK x h.1) fun _ => .bind (evalPlaceT_zero hK y h.2) fun _ => by repeat zero_step
  | .map e p body, h => by
    rw [avoids, Bool.and_eq_true] at h
    rw [evalT]
    exact .bind (evalT_zero hK e h.1) fun _ => .bind (.quiet _) fun _ => .emit rfl <|
      .bind (.mapLoop (fun _ => .bind (.quiet _) fun _ => evalT_zero hK body h.2) _) fun _ => .pure _
  | .ite c a b, h => by
    rw [avoids, Bool.and_eq_true, Bool.and_eq_true] at h
    rw [evalT]
    exact .bind (evalT_zero hK c h.1.1) fun _ => .branch _ (evalT_zero hK a h.1.2) (evalT_zero hK b h.2)
  | .match e ps bodies, h => by
    rw [avoids, Bool.and_eq_true] at h
    rw [evalT]
    exact .bind (evalT_zero hK e h.1) fun _ => evalMatchT_zero hK _ ps bodies h.2
  | .block ss e, h => by
    rw [avoids, Bool.and_eq_true] at h
    rw [evalT]
    exact .inScope <| .bind (evalListT_zero hK ss h.1) fun _ => evalT_zero hK e h.2
  | .let p e, h => by rw [evalT]; exact .bind (evalT_zero hK e h) fun _ => by repeat zero_step
  | .decl x, _ => by rw [evalT]; repeat zero_step
  | .assign x e, h => by
    rw [avoids, Bool.and_eq_true] at h
    rw [evalT]
    exact .bind (evalT_zero hK e h.2) fun _ => .bind (evalPlaceT_zero hK x h.1) fun _ => by repeat zero_step
  | .assignOp op x e, h => by
    rw [avoids, Bool.and_eq_true] at h
    rw [evalT]
    exact .bind (evalT_zero hK e h.2) fun _ => .bind (evalPlaceT_zero hK x h.1) fun _ => by repeat zero_step
  | .return e, h => by rw [evalT]; exact .bind (evalT_zero hK e h) fun _ => by repeat zero_step
  | .continue, _ => by rw [evalT]; repeat zero_step
  | .try e, h => by
    rw [evalT]
    refine .bind (evalT_zero hK e h) fun v => ?_
    cases v <;> try exact .quiet _
    rename_i c l
    cases c <;> (try exact .quiet _) <;> rcases l with _ | ⟨w, _ | ⟨_, _⟩⟩ <;>
      first | exact .quiet _ | exact .emit rfl (.pure _) | exact .emit rfl (.quiet _)
  | .while c body, h => by
    rw [avoids, Bool.and_eq_true] at h
    rw [evalT]
    exact .whileLoop (evalT_zero hK c h.1) (evalT_zero hK body h.2) _
  | .for p e body, h => by
    rw [avoids, Bool.and_eq_true] at h
    rw [evalT]
    exact .bind (evalT_zero hK e h.1) fun _ => .bind (.quiet _) fun _ => .emit rfl <|
      .forLoop (fun _ => .bind (.quiet _) fun _ => evalT_zero hK body h.2) _
  | .forMut x place body, h => by
    rw [avoids, Bool.and_eq_true] at h
    rw [evalT]
    exact .bind (evalPlaceT_zero hK place h.1) fun _ => .bind (.quiet _) fun _ => .bind (.quiet _) fun _ =>
      .emit rfl <| .forLoop (fun _ => .mutStep _ _ _ (evalT_zero hK body h.2) _) _
  | .forMutEnum i x place body, h => by
    rw [avoids, Bool.and_eq_true] at h
    rw [evalT]
    exact .bind (evalPlaceT_zero hK place h.1) fun _ => .bind (.quiet _) fun _ => .bind (.quiet _) fun _ =>
      .emit rfl <| .forLoop (fun _ => .mutStep _ _ _ (evalT_zero hK body h.2) _) _
  | .forMutZip x pat place e body, h => by
    rw [avoids, Bool.and_eq_true, Bool.and_eq_true] at h
    rw [evalT]
    exact .bind (evalPlaceT_zero hK place h.1.1) fun _ => .bind (.quiet _) fun _ => .bind (.quiet _) fun _ =>
      .bind (evalT_zero hK e h.1.2) fun _ => .bind (.quiet _) fun _ => .emit rfl <| .forLoop (fun ky => by
        rcases matchPat pat ky.2 with _ | bs
        · exact .quiet _
        · exact .mutStep _ _ _ (evalT_zero hK body h.2) _) _

theorem evalPlaceT_zero (hK : ∀ f vs, S f = true → f ≠ g ∧ calls g (K.call f vs).1 = 0) :
    ∀ e, avoids S e = true → Zero g (evalPlaceT K e)
  | .var x, _ => by rw [evalPlaceT]; repeat zero_step
  | .field e f, h => by rw [evalPlaceT]; exact .bind (evalPlaceT_zero hK e h) fun _ => by repeat zero_step
  | .index e i, h => by
    rw [avoids, Bool.and_eq_true] at h
    rw [evalPlaceT]
    exact .bind (evalPlaceT_zero hK e h.1) fun _ => .bind (evalT_zero hK i h.2) fun _ => by repeat zero_step
  | .slice e lo hi, h => by
    rw [avoids, Bool.and_eq_true, Bool.and_eq_true] at h
    rw [evalPlaceT]
    exact .bind (evalPlaceT_zero hK e h.1.1) fun _ => .bind (evalT_zero hK lo h.1.2) fun _ => .bind (.quiet _) fun _ =>
      .bind (evalT_zero hK hi h.2) fun _ => by repeat zero_step
  | .sliceTo e hi, h => by
    rw [avoids, Bool.and_eq_true] at h
    rw [evalPlaceT]
    exact .bind (evalPlaceT_zero hK e h.1) fun _ => .bind (evalT_zero hK hi h.2) fun _ => by repeat zero_step
  | .sliceFrom e lo, h => by
    rw [avoids, Bool.and_eq_true] at h
    rw [evalPlaceT]
    exact .bind (evalPlaceT_zero hK e h.1) fun _ => .bind (evalT_zero hK lo h.2) fun _ => by repeat zero_step
  | .int .., _ | .str .., _ | .unit, _ | .const .., _ | .not .., _ | .bin .., _ | .andAlso .., _ | .cast .., _ | .from .., _
  | .range .., _ | .rangeIncl .., _ | .array .., _ | .repeat .., _ | .tup .., _ | .struct .., _ | .ctor .., _ | .call .., _
  | .prim .., _ | .mutPrim .., _ | .appendFrom .., _ | .map .., _ | .ite .., _ | .match .., _ | .block .., _ | .let .., _
  | .decl .., _ | .assign .., _ | .assignOp .., _ | .return .., _ | .continue, _ | .try .., _ | .while .., _ | .for .., _
  | .forMut .., _ | .forMutEnum .., _ | .forMutZip .., _ => .quiet _

theorem evalListT_zero (hK : ∀ f vs, S f = true → f ≠ g ∧ calls g (K.call f vs).1 = 0) :
    ∀ es, avoidsList S es = true → Zero g (evalListT K es)
  | [], _ => by rw [evalListT]; exact .pure _
  | e :: es, h => by
    rw [avoidsList, Bool.and_eq_true] at h
    rw [evalListT]
    exact .bind (evalT_zero hK e h.1) fun _ => .bind (evalListT_zero hK es h.2) fun _ => .pure _

theorem evalArgsT_zero (hK : ∀ f vs, S f = true → f ≠ g ∧ calls g (K.call f vs).1 = 0) :
    ∀ ms es, avoidsList S es = true → Zero g (evalArgsT K ms es)
  | [], [], _ => .pure _
  | .val :: ms, e :: es, h => by
    rw [avoidsList, Bool.and_eq_true] at h
    rw [evalArgsT]
    exact .bind (evalT_zero hK e h.1) fun _ => .bind (evalArgsT_zero hK ms es h.2) fun _ => .pure _
  | .mutRef :: ms, e :: es, h => by
    rw [avoidsList, Bool.and_eq_true] at h
    rw [evalArgsT]
    exact .bind (evalPlaceT_zero hK e h.1) fun _ => .bind (evalArgsT_zero hK ms es h.2) fun _ => .pure _
  | [], _ :: _, _ => .quiet _
  | .val :: _, [], _ => .quiet _
  | .mutRef :: _, [], _ => .quiet _

theorem evalMatchT_zero (hK : ∀ f vs, S f = true → f ≠ g ∧ calls g (K.call f vs).1 = 0) (v : Val) :
    ∀ ps es, avoidsList S es = true → Zero g (evalMatchT K v ps es)
  | p :: ps, e :: es, h => by
    rw [avoidsList, Bool.and_eq_true] at h
    rw [evalMatchT]
    rcases matchPat p v with _ | bs
    · exact .emit rfl <| evalMatchT_zero hK v ps es h.2
    · exact .emit rfl <| .inScope <| .bind (.quiet _) fun _ => evalT_zero hK e h.1
  | [], _, _ => by rw [evalMatchT] <;> first | exact .quiet _ | simp
  | _ :: _, [], _ => by rw [evalMatchT] <;> first | exact .quiet _ | simp

end
end

/-- The functions of `S` call each other only, and `g` is not among them. -/
def Program.closed (P : Program) (S : Fn → Bool) (g : Fn) : Prop := ∀ f, S f = true → f ≠ g ∧ avoids S (P.fn f).body = true

theorem callT_avoids {P : Program} {S : Fn → Bool} {g : Fn} (h : P.closed S g) (T : Target) (F d : Nat) (f : Fn) (hf : S f = true)
    (args : List Val) : calls g (callT T P F d f args).1 = 0 := by
  induction d generalizing f args with
  | zero => rfl
  | succ d ih =>
    rw [callT]
    exact evalT_zero (S := S) (fun f vs hf => ⟨(h f hf).1, ih f hf vs⟩) _ (h f hf).2 _

/-- The same for a function that is not in `S` but calls functions of `S` only. -/
theorem callT_avoids' {P : Program} {S : Fn → Bool} {g : Fn} (h : P.closed S g) (T : Target) (F d : Nat) (f : Fn)
    (hf : avoids S (P.fn f).body = true) (args : List Val) : calls g (callT T P F d f args).1 = 0 := by
  cases d with
  | zero => rfl
  | succ d =>
    rw [callT]
    exact evalT_zero (S := S) (fun f vs hf => ⟨(h f hf).1, callT_avoids h T F d f hf vs⟩) _ hf _

/-- A loop whose rounds make `ψ (n + 1) s - ψ n s'` calls each. -/
theorem loop_calls {g : Fn} {α σ : Type} {seen : Val → Env → Trace} {step : Val → E Val} (enc : α → Val) (env : σ → Env)
    (body : α → σ → M σ) (I : σ → Prop) (ψ : Nat → σ → Nat) (xs : List α) (h0 : ∀ s, ψ 0 s = 0)
    (hk : ∀ x ∈ xs, ∀ s, I s → ∀ k, nextIter (inScope (step (enc x)) (env s)) k = up (body x s) >>= fun s => k (env s))
    (hc : ∀ x ∈ xs, ∀ n s s', I s → body x s = .ok s' → calls g (seen (enc x) (env s)) + ψ n s' = ψ (n + 1) s ∧ I s')
    (s : σ) (hs : I s) (s' : σ) (hm : forEach xs s body = .ok s') :
    calls g (loopTr seen step (xs.map enc) (env s)) = ψ xs.length s := by
  induction xs generalizing s with
  | nil => exact (h0 s).symm
  | cons x xs ih =>
    obtain ⟨s1, e1, e2⟩ : ∃ s1, body x s = .ok s1 ∧ forEach xs s1 body = .ok s' := by
      have hm : (body x s >>= fun s1 => forEach xs s1 body) = .ok s' := by simpa [forEach, List.foldlM_cons] using hm
      cases e : body x s with
      | error e' => rw [e] at hm; cases hm
      | ok s1 => rw [e] at hm; exact ⟨s1, rfl, hm⟩
    obtain ⟨h1, h2⟩ := hc x (by simp) xs.length s s1 hs e1
    rw [List.map_cons, loopTr_cons, calls_append, hk x (by simp) s hs, e1, up_ok, R.ok_bind, after_val,
      ih (fun y hy => hk y (by simp [hy])) (fun y hy => hc y (by simp [hy])) s1 h2 e2]
    exact h1

/-- `trace_for`, with a name for what is seen of a round. -/
theorem trace_for' (K : CtxT) (env : Env) (p : Pat) (e body : Expr) :
    (evalT K (.for p e body) env).1 =
      (evalT K e env).1 ++ after (eval K.erase e env) fun v env => after (ofSeq v env) fun xs env =>
        .count xs.length :: loopTr (seenOfPat K p body) (fun x => do let _ ← bindPat p x; eval K.erase body) xs env :=
  trace_for K env p e body

/-- `trace_forMut`, with a name for what is seen of a round. -/
theorem trace_forMut' (K : CtxT) (env : Env) (x : Id) (place body : Expr) :
    (evalT K (.forMut x place body) env).1 =
      (evalPlaceT K place env).1 ++ after (evalPlace K.erase place env) fun p env => after (readPath p env) fun v env =>
        after (ofSeq v env) fun xs env => .count xs.length ::
          loopTr (mutTr p x [] (seenOf K body)) (mutStep p x [] (eval K.erase body)) (List.range xs.length) env :=
  trace_forMut K env x place body

theorem trace_place_sliceFrom (K : CtxT) (env : Env) (e lo : Expr) :
    (evalPlaceT K (.sliceFrom e lo) env).1 =
      (evalPlaceT K e env).1 ++ after (evalPlace K.erase e env) fun p env => (evalT K lo env).1 ++ after (eval K.erase lo env) fun a env =>
        after (ofUsize a env) fun a env => after (readPath p env) fun v env => after (ofSeq v env) fun xs _ =>
          [.range a xs.length] := by
  rw [evalPlaceT]; trace_eq []

theorem trace_place_sliceTo (K : CtxT) (env : Env) (e hi : Expr) :
    (evalPlaceT K (.sliceTo e hi) env).1 =
      (evalPlaceT K e env).1 ++ after (evalPlace K.erase e env) fun _ env => (evalT K hi env).1 ++ after (eval K.erase hi env) fun b env =>
        after (ofUsize b env) fun b _ => [.range 0 b] := by
  rw [evalPlaceT]; trace_eq []

end Verif.Source
