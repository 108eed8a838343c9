import Verif.Source.LeftScrypt
import Verif.Source.Refine.Salsa20
import Verif.Props.Salsa20

/-! What a panic of `salsa20` (src/salsa20.rs) leaves in the output buffer. -/

set_option linter.constructorNameAsVariable false
set_option backward.isDefEq.respectTransparency false

namespace Verif.Source
open Verif Verif.Salsa20

theorem forLoopU_panics {α : Type} {step : α → EU Val} {ys : List α} {x : α} {zs : List α} {env env1 env2 : Env} {er : Err}
    (h1 : forLoopU step ys env = (.ok (.val .unit), env1)) (h2 : absorbU (inScopeU (step x)) env1 = (.error er, env2)) :
    forLoopU step (ys ++ x :: zs) env = (.error er, env2) := by
  induction ys generalizing env with
  | nil =>
    cases h1
    show thenU (absorbU (inScopeU (step x)) _) _ = _
    rw [h2]; rfl
  | cons y ys ih =>
    replace h1 : thenU (absorbU (inScopeU (step y)) env) (fun _ => forLoopU step ys) = _ := h1
    show thenU (absorbU (inScopeU (step y)) env) (fun _ => forLoopU step (ys ++ x :: zs)) = _
    rcases hy : absorbU (inScopeU (step y)) env with ⟨r | ⟨a | v | _⟩, env'⟩ <;> rw [hy] at h1
    · cases h1
    · exact ih h1
    · cases h1
    · cases h1

variable (T : Target) (F d : Nat)

/-- `salsa20` before the output is written. -/
def salsaPre : List Expr :=
  [.let (.var .x) (.repeat (.int .u32 0) (.int .usize 16)),
   .forMutEnum .i .elem (.var .x)
     (.block
        [.let (.var .«from») (.bin .mul (.var .i) (.int .usize 4)),
         .let (.var .to) (.bin .add (.var .«from») (.int .usize 4)),
         .assign (.var .elem) (.call .salsa20_littleendian [.slice (.var .input) (.var .«from») (.var .to)])]
        .unit),
   .let (.var .z) (.var .x),
   .for .wild (.range (.int .usize 0) (.var .rounds))
     (.block
        [.let (.var .t) (.repeat (.int .u32 0) (.int .usize 16)),
         .call .salsa20_doubleround [.var .z, .var .t],
         .assign (.var .z) (.var .t)]
        .unit)]

/-- The writing of one word. -/
def salsaBody : Expr :=
  .block
    ([.let (.var .«from») (.bin .mul (.var .i) (.int .usize 4)),
      .let (.var .to) (.bin .add (.var .«from») (.int .usize 4))] ++
     [.call .salsa20_littleendian_inv
       [.block
          [.let (.var .acc) (.var .x_elem),
           .assign (.var .acc) (.prim .wrappingAdd [.var .acc, .var .z_elem])]
          (.var .acc),
        .slice (.var .output) (.var .«from») (.var .to)]])
    .unit

def salsaPat : Pat := .tup [(.tup [(.var .i), (.var .x_elem)]), (.var .z_elem)]

def salsaLoop : Expr := .for salsaPat (.prim .zip [.prim .enumerate [.var .x], .var .z]) salsaBody

/-- The model up to there. -/
def salsaFront (input : List U8) (rounds : Nat) : M (Vector U32 16 × Vector U32 16) := do
  let x ← forRange 0 16 (Vector.replicate 16 (0 : U32)) fun i x => do
    vupd x i (← littleendian (← slice input (i * 4) (i * 4 + 4)))
  let z ← forRange 0 rounds x fun _ z => return doubleround z
  return (x, z)

def salsaEnv (input : List U8) (rounds : Nat) (output : List U8) : Env :=
  [(.input, bytes input), (.rounds, .usize rounds), (.output, bytes output)]

theorem salsa_pre (input output : List U8) (rounds : Nat) :
    evalSeq (ctx T F (d + 4)) salsaPre .unit (salsaEnv input rounds output) =
      up (salsaFront input rounds) >>= fun r => .ok (.val .unit,
        (.z, words r.2.toList) :: (.x, words r.1.toList) :: salsaEnv input rounds output) := by
  evaluate [salsaPre, salsaEnv, salsaFront, forLoop_map]
  erw [forLoop_model (fun x : Vector U32 16 => [(.x, words x.toList), (.input, bytes input), (.rounds, .usize rounds),
    (.output, bytes output)]) (forRange 0 16 (Vector.replicate 16 (0 : U32)) _) rfl]
  · evaluate [forLoop_map]
    refine R.bind_congr fun x => ?_
    erw [forLoop_model (fun z : Vector U32 16 => [(.z, words z.toList), (.x, words x.toList), (.input, bytes input),
      (.rounds, .usize rounds), (.output, bytes output)])
      (forRange 0 rounds x fun _ z => return doubleround z) rfl]
    · evaluate []
    · intro i _ z k
      evaluate []
  · intro i hi x k
    simp at hi
    evaluate [Small.add, Small.mul, vidx_ok]

/-- One word of the output. -/
def salsaWord (x z : Vector U32 16) (i : Nat) (o : List U8) : M (List U8) := do
  let piece ← littleendian_inv (wrapping_sum (x[i]?.getD 0) [z[i]?.getD 0]) (← slice o (i * 4) (i * 4 + 4))
  copyFromSlice o (i * 4) (i * 4 + 4) piece

def salsaVal (x z : Vector U32 16) (i : Nat) : Val := .tup [.tup [.usize i, .u32 (x[i]?.getD 0)], .u32 (z[i]?.getD 0)]

def salsaEnv2 (input : List U8) (rounds : Nat) (x z : Vector U32 16) (o : List U8) : Env :=
  (.z, words z.toList) :: (.x, words x.toList) :: salsaEnv input rounds o

theorem salsa_step (input : List U8) (rounds : Nat) (x z : Vector U32 16) (i : Nat) (hi : i < 16) (o : List U8)
    (k : Env → R (Ctl Val × Env)) :
    nextIter (inScope (bindPat salsaPat (salsaVal x z i) >>= fun _ => eval (ctx T F (d + 4)) salsaBody)
        (salsaEnv2 input rounds x z o)) k =
      up (salsaWord x z i o) >>= fun o' => k (salsaEnv2 input rounds x z o') := by
  unfold salsaEnv2 salsaEnv salsaBody salsaPat salsaVal
  by_cases ho : i * 4 + 4 ≤ o.length
  · have hl : (List.drop (i * 4) (List.take (i * 4 + 4) o)).length = 4 := by simp; omega
    evaluate [salsaWord, Small.add, Small.mul, vidx_ok, slice, copyFromSlice, ho, littleendian_inv_ok _ _ hl, wrapping_sum]
    simp
  · evaluate [salsaWord, Small.add, Small.mul, vidx_ok, slice, copyFromSlice, ho]

/-- A call whose arguments cannot be read. -/
theorem call_unread (K : CtxU) {f : Fn} {args : List Expr} {env env1 : Env} {as : List Arg} {er : Err}
    (ha : evalArgs K.erase (K.sig f) args env = .ok (.val as, env1)) (hr : readArgs as env1 = .error er) :
    evalU K (.call f args) env = (.error er, env1) := by
  rw [evalU]
  show thenU (evalArgsU K (K.sig f) args env) _ = _
  rw [(evalArgsU_erase K _ _).ok ha]
  show thenU (hold (readArgs as) env1) _ = _
  unfold hold
  rw [hr]
  rfl

/-- The word that does not fit. -/
theorem salsa_word_panics (input : List U8) (rounds : Nat) (x z : Vector U32 16) (i : Nat) (hi : i < 16) (o : List U8)
    (ho : o.length < i * 4 + 4) :
    absorbU (inScopeU (hold (bindPat salsaPat (salsaVal x z i)) >>= fun _ => evalU (ctxU T F (d + 4)) salsaBody))
        (salsaEnv2 input rounds x z o) = (.error (.panic .index), salsaEnv2 input rounds x z o) := by
  have hb : bindPat salsaPat (salsaVal x z i) (salsaEnv2 input rounds x z o) = .ok (.val .unit,
      (.z_elem, .u32 (z[i]?.getD 0)) :: (.x_elem, .u32 (x[i]?.getD 0)) :: (.i, .usize i) :: salsaEnv2 input rounds x z o) := rfl
  have hpre : evalSeq (ctxU T F (d + 4)).erase
      [.let (.var .«from») (.bin .mul (.var .i) (.int .usize 4)),
       .let (.var .to) (.bin .add (.var .«from») (.int .usize 4))] .unit
      ((.z_elem, .u32 (z[i]?.getD 0)) :: (.x_elem, .u32 (x[i]?.getD 0)) :: (.i, .usize i) :: salsaEnv2 input rounds x z o) =
      .ok (.val .unit, (.to, .usize (i * 4 + 4)) :: (.«from», .usize (i * 4)) :: (.z_elem, .u32 (z[i]?.getD 0)) ::
        (.x_elem, .u32 (x[i]?.getD 0)) :: (.i, .usize i) :: salsaEnv2 input rounds x z o) := by
    rw [ctxU_erase]
    unfold salsaEnv2 salsaEnv
    evaluate [Small.add, Small.mul]
  have h1 := call_unread (ctxU T F (d + 4)) (f := .salsa20_littleendian_inv)
    (args := [.block
          [.let (.var .acc) (.var .x_elem),
           .assign (.var .acc) (.prim .wrappingAdd [.var .acc, .var .z_elem])]
          (.var .acc), .slice (.var .output) (.var .«from») (.var .to)])
    (env := (.to, .usize (i * 4 + 4)) :: (.«from», .usize (i * 4)) :: (.z_elem, .u32 (z[i]?.getD 0)) ::
        (.x_elem, .u32 (x[i]?.getD 0)) :: (.i, .usize i) :: salsaEnv2 input rounds x z o)
    (env1 := (.to, .usize (i * 4 + 4)) :: (.«from», .usize (i * 4)) :: (.z_elem, .u32 (z[i]?.getD 0)) ::
        (.x_elem, .u32 (x[i]?.getD 0)) :: (.i, .usize i) :: salsaEnv2 input rounds x z o)
    (as := [.val (.u32 (x[i]?.getD 0 + z[i]?.getD 0)), .place ⟨.output, [.rng (i * 4) (i * 4 + 4)]⟩]) (er := .panic .index)
    (by
      rw [ctxU_erase]
      unfold salsaEnv2 salsaEnv
      show evalArgs _ [.val, .mutRef] _ _ = _
      evaluate [])
    (by
      unfold salsaEnv2 salsaEnv
      evaluate [slice, show ¬ i * 4 + 4 ≤ o.length by omega])
  have h3 := evalU_block_panics (ctxU T F (d + 4)) (post := []) (e := .unit) hpre h1
  have h5 : (hold (bindPat salsaPat (salsaVal x z i)) >>= fun _ => evalU (ctxU T F (d + 4)) salsaBody) (salsaEnv2 input rounds x z o) =
      (.error (.panic .index), (.z_elem, .u32 (z[i]?.getD 0)) :: (.x_elem, .u32 (x[i]?.getD 0)) :: (.i, .usize i) ::
        salsaEnv2 input rounds x z o) := by
    show thenU (hold (bindPat salsaPat (salsaVal x z i)) (salsaEnv2 input rounds x z o)) _ = _
    unfold hold
    rw [hb]
    exact h3
  unfold absorbU inScopeU
  rw [h5]
  rfl

/-- A round of the loop that goes well. -/
theorem salsa_word_ok (input : List U8) (rounds : Nat) (x z : Vector U32 16) (i : Nat) (hi : i < 16) (o o' : List U8)
    (h : salsaWord x z i o = .ok o') :
    absorbU (inScopeU (hold (bindPat salsaPat (salsaVal x z i)) >>= fun _ => evalU (ctxU T F (d + 4)) salsaBody))
        (salsaEnv2 input rounds x z o) = (.ok (.val .unit), salsaEnv2 input rounds x z o') := by
  have hs := salsa_step T F d input rounds x z i hi o fun env => .ok (.val .unit, env)
  rw [h] at hs
  have hE : Eu (absorbU (inScopeU (hold (bindPat salsaPat (salsaVal x z i)) >>= fun _ => evalU (ctxU T F (d + 4)) salsaBody)))
      (absorb (inScope (bindPat salsaPat (salsaVal x z i) >>= fun _ => eval (ctxU T F (d + 4)).erase salsaBody))) :=
    .absorb (.inScope (.bind (.hold _) fun _ => evalU_erase _ _))
  refine hE.ok ?_
  rw [ctxU_erase]
  refine Eq.trans ?_ hs
  show (inScope _ _ >>= _) = (inScope _ _ >>= _)
  congr 1

/-- The words that fit are written. -/
theorem salsa_words (input : List U8) (rounds : Nat) (x z : Vector U32 16) (n : Nat) (hn : n ≤ 16) (o o' : List U8)
    (h : forRange 0 n o (salsaWord x z) = .ok o') :
    forLoopU (fun v => hold (bindPat salsaPat v) >>= fun _ => evalU (ctxU T F (d + 4)) salsaBody)
      ((List.range' 0 n).map (salsaVal x z)) (salsaEnv2 input rounds x z o) = (.ok (.val .unit), salsaEnv2 input rounds x z o') := by
  rw [forLoopU_map]
  have hm := forLoopU_model (step := fun i => hold (bindPat salsaPat (salsaVal x z i)) >>= fun _ => evalU (ctxU T F (d + 4)) salsaBody)
    (salsaEnv2 input rounds x z) (fun _ => True) (fun _ _ => True) (salsaWord x z) (List.range' 0 n) ?_ o trivial
  · rw [show forEach (List.range' 0 n) o (salsaWord x z) = .ok o' from h] at hm
    exact hm.1
  · intro i hi s _
    have hi : i < 16 := by simp at hi; omega
    by_cases hl : s.length < i * 4 + 4
    · have e : salsaWord x z i s = .error .index := by
        unfold salsaWord slice
        rw [if_neg (by omega)]; rfl
      rw [e]
      exact ⟨s, salsa_word_panics T F d input rounds x z i hi s hl, trivial⟩
    · rcases e : salsaWord x z i s with p | s'
      · have hl' : (List.drop (i * 4) (List.take (i * 4 + 4) s)).length = 4 := by simp; omega
        unfold salsaWord slice copyFromSlice at e
        rw [if_pos (by omega), ok_bind, Source.littleendian_inv_ok _ _ hl', ok_bind, if_pos (by omega), if_pos (by simp)] at e
        cases e
      · exact ⟨salsa_word_ok T F d input rounds x z i hi s s' e, trivial⟩

theorem store_upto (x z : Vector U32 16) (L : List U32) (hL : L.length = 16) (hget : ∀ i (h : i < 16), L[i] = x[i] + z[i])
    (n : Nat) (hn : n ≤ 16) (output : List U8) (h : 4 * n ≤ output.length) :
    forRange 0 n output (salsaWord x z) = .ok ((L.take n).flatMap Spec.Salsa20.littleendianInv ++ output.drop (4 * n)) := by
  obtain ⟨o, h1, h2⟩ := forRange_inv 0 n (by omega) output (salsaWord x z)
    (fun i o => o = (L.take i).flatMap Spec.Salsa20.littleendianInv ++ output.drop (4 * i))
    (by simp)
    (by
      intro i o _ hi hP
      have hl : ((L.take i).flatMap Spec.Salsa20.littleendianInv).length = 4 * i := by
        rw [flatMap_inv_length, List.length_take]; omega
      have hol : o.length = output.length := by
        rw [hP, List.length_append, hl, List.length_drop]; omega
      have hi' : i < 16 := by omega
      unfold salsaWord
      rw [slice_ok _ _ _ (by omega) (by omega), ok_bind, Salsa20.littleendian_inv_ok _ _ (by simp; omega), ok_bind, copyFromSlice,
        if_pos (by omega), if_pos (by simp [Spec.Salsa20.littleendianInv])]
      refine ⟨_, rfl, ?_⟩
      rw [List.take_succ_eq_append_getElem (by omega), List.flatMap_append]
      have e1 : o.take (i * 4) = (L.take i).flatMap Spec.Salsa20.littleendianInv := by
        rw [hP, List.take_append_of_le_length (by omega), List.take_of_length_le (by omega)]
      have e2 : o.drop (i * 4 + 4) = output.drop (4 * (i + 1)) := by
        rw [hP, List.drop_append, hl, List.drop_eq_nil_of_le (by omega), List.nil_append, List.drop_drop]
        congr 1; omega
      rw [e1, e2, hget i hi', Vector.getElem?_eq_getElem hi', Vector.getElem?_eq_getElem hi']
      simp only [wrapping_sum, List.foldl_cons, List.foldl_nil, List.flatMap_cons, List.flatMap_nil, List.append_nil,
        Option.getD_some])
  rw [h1, h2]

theorem core_take_words (k n : Nat) (x : List U8) : (Spec.Salsa20.core k x).take (4 * n) =
    ((Vector.zipWith (· + ·) (Spec.Salsa20.doubleroundN k (Spec.Salsa20.words x)) (Spec.Salsa20.words x)).toList.take n).flatMap
      Spec.Salsa20.littleendianInv := by
  unfold Spec.Salsa20.core
  generalize (Vector.zipWith (· + ·) (Spec.Salsa20.doubleroundN k (Spec.Salsa20.words x)) (Spec.Salsa20.words x)).toList = l
  induction l generalizing n with
  | nil => simp
  | cons a l ih =>
    cases n with
    | zero => rfl
    | succ n =>
      rw [List.take_succ_cons, List.flatMap_cons, List.flatMap_cons, ← ih n, List.take_append]
      have : (Spec.Salsa20.littleendianInv a).length = 4 := rfl
      rw [List.take_of_length_le (by omega), this]
      congr 2

theorem salsa_body : Gen.fn_salsa20_salsa20.body = .block salsaPre salsaLoop := rfl

/-- With a short input the output buffer is left alone. -/
theorem left_salsa20_input (input output : List U8) (rounds : Nat) (hi : input.length < 64) :
    callU T crate F (d + 5) .salsa20_salsa20 [bytes input, .usize rounds, bytes output] =
      (.error (.panic .index), [bytes output]) := by
  have hpre := salsa_pre T F d input output rounds
  have hf : salsaFront input rounds = .error .index := by
    rw [salsaFront, forRange_err 0 16 (input.length / 4) (by omega) (by omega) (Vector.replicate 16 (0 : U32)) _ (fun _ _ => True)
      trivial ?_ .index ?_]
    · rfl
    · intro i s _ hik _
      rw [slice_ok _ _ _ (by omega) (by omega), ok_bind, littleendian_ok _ (by simp; omega), ok_bind,
        vupd_ok _ _ _ (by omega)]
      exact ⟨_, rfl, trivial⟩
    · intro s _
      rw [slice, if_neg (by omega)]
      rfl
  rw [hf, ← ctxU_erase] at hpre
  have hkp : Kp .output (evalListU (ctxU T F (d + 4)) salsaPre) := evalListU_keeps _ _ _ rfl
  have hk := hkp (salsaEnv input rounds output)
  have h1 := (evalSeqU_erase (ctxU T F (d + 4)) salsaPre .unit).error hpre
  rw [evalSeqU_eq] at h1
  replace h1 : (thenU (evalListU (ctxU T F (d + 4)) salsaPre _) _).1 = _ := h1
  rcases hl : evalListU (ctxU T F (d + 4)) salsaPre (salsaEnv input rounds output) with ⟨r | ⟨a | v | _⟩, env'⟩ <;>
    rw [hl] at h1 hk
  · obtain rfl : r = .panic .index := by cases h1; rfl
    replace hk : Keeps .output (salsaEnv input rounds output) env' := hk
    have h4 : evalU (ctxU T F (d + 4)) Gen.fn_salsa20_salsa20.body (salsaEnv input rounds output) =
        (.error (.panic .index), env'.drop (env'.length - 3)) := by
      rw [salsa_body, evalU_block]; unfold inScopeU
      rw [evalSeqU_eq]
      rw [show (evalListU (ctxU T F (d + 4)) salsaPre >>= fun _ => evalU (ctxU T F (d + 4)) salsaLoop) (salsaEnv input rounds output) =
        thenU (evalListU (ctxU T F (d + 4)) salsaPre (salsaEnv input rounds output)) _ from rfl, hl]
      rfl
    refine callU_eq T F (d + 4) .salsa20_salsa20 (D := Gen.fn_salsa20_salsa20) rfl
      (args := [bytes input, .usize rounds, bytes output]) (outs := [bytes output]) h4 ?_
    have hle : 3 ≤ env'.length := hk.le
    have h5 : (salsaEnv input rounds output).length = 3 := rfl
    have hg := hk.drop.getVar (by rw [List.length_drop, h5]; omega)
    show (do let v ← getVar .output (env'.drop (env'.length - 3)); let vs ← Except.ok []; Except.ok (v :: vs)) = _
    erw [hg]
    rfl
  · replace h1 : (evalU _ _ _).1 = _ := h1
    rw [evalU] at h1
    cases h1
  · cases h1
  · cases h1

/-- With a short output buffer, the words that fit are written, and the bytes after them left alone. -/
theorem left_salsa20_output (input output : List U8) (rounds : Nat) (hi : 64 ≤ input.length) (ho : output.length < 64) :
    callU T crate F (d + 5) .salsa20_salsa20 [bytes input, .usize rounds, bytes output] =
      (.error (.panic .index), [bytes ((Spec.Salsa20.core rounds input).take (4 * (output.length / 4)) ++
        output.drop (4 * (output.length / 4)))]) := by
  have hpre := salsa_pre T F d input output rounds
  have hf : salsaFront input rounds = .ok (Spec.Salsa20.words input, Spec.Salsa20.doubleroundN rounds (Spec.Salsa20.words input)) := by
    unfold salsaFront
    rw [load_ok input hi, ok_bind, rounds_ok]
    rfl
  rw [hf, ← ctxU_erase] at hpre
  generalize hx : Spec.Salsa20.words input = x at *
  generalize hz : Spec.Salsa20.doubleroundN rounds x = z at *
  replace hpre : evalSeq _ _ _ _ = .ok (.val .unit, salsaEnv2 input rounds x z output) := hpre
  have hw := store_upto x z (Vector.zipWith (· + ·) z x).toList (by simp) (by intro i h; simp [BitVec.add_comm]) (output.length / 4)
    (by omega) output (by omega)
  have h1 := salsa_words T F d input rounds x z (output.length / 4) (by omega) _ _ hw
  generalize hk : output.length / 4 = k at *
  rw [core_take_words, hx, hz]
  generalize hO : ((Vector.zipWith (· + ·) z x).toList.take k).flatMap Spec.Salsa20.littleendianInv ++ output.drop (4 * k) = O at *
  have hOl : O.length = output.length := by
    rw [← hO, List.length_append, flatMap_inv_length, List.length_take, List.length_drop, Vector.length_toList]; omega
  have h2 := salsa_word_panics T F d input rounds x z k (by omega) O (by omega)
  have h3 := forLoopU_panics (step := fun v => hold (bindPat salsaPat v) >>= fun _ => evalU (ctxU T F (d + 4)) salsaBody)
    (zs := (List.range' (k + 1) (15 - k)).map (salsaVal x z)) h1 h2
  have hl : evalU (ctxU T F (d + 4)) salsaLoop (salsaEnv2 input rounds x z output) =
      (.error (.panic .index), salsaEnv2 input rounds x z O) := by
    unfold salsaLoop
    rw [evalU_for (xs := (List.range' 0 16).map (salsaVal x z)) (env' := salsaEnv2 input rounds x z output)]
    · rw [← h3, ← List.map_cons, ← List.map_append]
      congr 2
      rw [← List.range'_succ, show 15 - k + 1 = 16 - k by omega]
      have e := List.range'_append_1 (s := 0) (m := k) (n := 16 - k)
      rw [Nat.zero_add, show k + (16 - k) = 16 by omega] at e
      exact e.symm
    · rw [ctxU_erase]
      unfold salsaEnv2 salsaEnv
      evaluate []
      exact zip_enum x z
  have h4 : evalU (ctxU T F (d + 4)) Gen.fn_salsa20_salsa20.body (salsaEnv input rounds output) =
      (.error (.panic .index), salsaEnv input rounds O) := evalU_block_panics_last _ hpre hl
  exact callU_eq T F (d + 4) .salsa20_salsa20 (D := Gen.fn_salsa20_salsa20) rfl
      (args := [bytes input, .usize rounds, bytes output]) (outs := [bytes O]) h4 rfl

end Verif.Source
