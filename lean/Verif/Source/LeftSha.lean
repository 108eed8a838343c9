import Verif.Source.Left
import Verif.Source.Refine.Hmac
import Verif.Proof.Sha256Stream

/-! What a panic in `SHA256` or `HMac` leaves behind. -/

set_option linter.constructorNameAsVariable false
set_option backward.isDefEq.respectTransparency false

namespace Verif.Source
open Verif Verif.Sha256 Verif.Hmac

variable (T : Target) (F d : Nat)

/-- The rounds of the loop of `update`. -/
def updateStep : Expr :=
  .block
    [.let (.var .off) (.bin .rem (.field (.var .self) .length) (.const .sha256_BLOCK_SIZE)),
     .assign (.index (.field (.var .self) .buffer) (.var .off)) (.var .b),
     .assignOp .add (.field (.var .self) .length) (.int .usize 1),
     .ite
       (.bin .ne (.bin .rem (.field (.var .self) .length) (.const .sha256_BLOCK_SIZE)) (.int .usize 0))
       (.block [.continue] .unit)
       .unit,
     .call .sha256_fill_block [.field (.var .self) .buffer, .var .block],
     .call .sha256_SHA256_process_block [.var .self, .var .block]]
    .unit

/-- The variables in the loop of `update`. -/
def updateEnv (data : List U8) (st : SHA256 × Vector U32 16) : Env :=
  [(.block, words st.2.toList), (.self, encSha st.1), (.data, bytes data)]

theorem updateByte_step (data : List U8) (b : U8) (st : SHA256 × Vector U32 16) (k : Env → R (Ctl Val × Env)) :
    nextIter (inScope (bindPat (.var .b) (.u8 b) >>= fun _ => eval (ctx T F (d + 3)) updateStep) (updateEnv data st)) k =
      up (SHA256.updateByte T b st) >>= fun st' => k (updateEnv data st') := by
  unfold updateEnv updateStep
  evaluate [Target.rem, BLOCK_SIZE, SHA256.updateByte]

theorem assignOp_left (K : CtxU) {op : BinOp} {x e : Expr} {env : Env} {v w : Val} {p : Path} {er : Err}
    (he : eval K.erase e env = .ok (.val v, env)) (hx : evalPlace K.erase x env = .ok (.val p, env))
    (hw : readPath p env = .ok (.val w, env)) (hb : evalBin K.T op w v = .error er) :
    evalU K (.assignOp op x e) env = (.error er, env) := by
  rw [evalU]
  show thenU (evalU K e env) _ = _
  rw [evalU_ok K he]
  show thenU (evalPlaceU K x env) _ = _
  rw [(evalPlaceU_erase K x).ok hx]
  show thenU (hold (readPath p) env) _ = _
  rw [(Eu.hold _).ok hw]
  show thenU (hold (lift (evalBin K.T op w v)) env) _ = _
  rw [hb]
  rfl

theorem updateByte_error {b : U8} {st : SHA256 × Vector U32 16} {p : Panic} (h : SHA256.updateByte T b st = .error p) :
    p = .overflow ∧ T.checks = true ∧ 2 ^ T.bits ≤ st.1.length + 1 := by
  obtain ⟨s, blk⟩ := st
  unfold SHA256.updateByte at h
  have hlt : s.length % BLOCK_SIZE < 64 := Nat.mod_lt _ (by decide)
  simp only [vupd_ok _ _ _ hlt, ok_bind, fill_block_eq] at h
  rcases ha : T.add s.length 1 with e | n
  · rw [ha] at h
    cases h
    unfold Target.add at ha
    split at ha
    · cases ha
    · split at ha
      · cases ha; exact ⟨rfl, by assumption, by simpa using by omega⟩
      · cases ha
  · rw [ha] at h
    simp only [ok_bind] at h
    split at h
    · cases h
    · rw [process_block_eq _ _ (fun t => Spec.be32At _ (4 * t)) (fun j hj => by simp; rfl)] at h
      cases h

theorem left_updateByte (data : List U8) (b : U8) (st : SHA256 × Vector U32 16) :
    match SHA256.updateByte T b st with
    | .ok st' => absorbU (inScopeU (hold (bindPat (.var .b) (.u8 b)) >>= fun _ => evalU (ctxU T F (d + 3)) updateStep)) (updateEnv data st) =
        (.ok (.val .unit), updateEnv data st')
    | .error p => ∃ l : SHA256 × Vector U32 16,
        absorbU (inScopeU (hold (bindPat (.var .b) (.u8 b)) >>= fun _ => evalU (ctxU T F (d + 3)) updateStep)) (updateEnv data st) =
          (.error (.panic p), updateEnv data l) ∧ p = .overflow ∧ l.1.length = st.1.length ∧ T.checks = true ∧
          2 ^ T.bits ≤ st.1.length + 1 := by
  have hE : Eu (absorbU (inScopeU (hold (bindPat (.var .b) (.u8 b)) >>= fun _ => evalU (ctxU T F (d + 3)) updateStep)))
      (absorb (inScope (bindPat (.var .b) (.u8 b) >>= fun _ => eval (ctxU T F (d + 3)).erase updateStep))) :=
    .absorb (.inScope (.bind (.hold _) fun _ => evalU_erase _ _))
  have hs := updateByte_step T F d data b st fun env => .ok (.val .unit, env)
  have hn : absorb (inScope (bindPat (.var .b) (.u8 b) >>= fun _ => eval (ctxU T F (d + 3)).erase updateStep)) (updateEnv data st) =
      nextIter (inScope (bindPat (.var .b) (.u8 b) >>= fun _ => eval (ctx T F (d + 3)) updateStep) (updateEnv data st))
        fun env => .ok (.val .unit, env) := by
    rw [ctxU_erase]
    show (inScope _ _ >>= _) = (inScope _ _ >>= _)
    congr 1
  rw [hs] at hn
  rcases hb : SHA256.updateByte T b st with p | st'
  · rw [hb] at hn
    obtain ⟨rfl, hc, hl⟩ := updateByte_error T hb
    obtain ⟨s, blk⟩ := st
    have hlt : s.length % 64 < 64 := Nat.mod_lt _ (by decide)
    refine ⟨({ s with buffer := s.buffer.set (s.length % 64) b }, blk), ?_, rfl, rfl, hc, hl⟩
    have h1 : evalSeq (ctxU T F (d + 3)).erase
        [.let (.var .off) (.bin .rem (.field (.var .self) .length) (.const .sha256_BLOCK_SIZE)),
         .assign (.index (.field (.var .self) .buffer) (.var .off)) (.var .b)] .unit
        ((.b, .u8 b) :: updateEnv data (s, blk)) =
        .ok (.val .unit, (.off, .usize (s.length % 64)) :: (.b, .u8 b) ::
          updateEnv data ({ s with buffer := s.buffer.set (s.length % 64) b }, blk)) := by
      rw [ctxU_erase]
      unfold updateEnv
      evaluate [Target.rem, BLOCK_SIZE, vupd_ok]
    have h2 : evalU (ctxU T F (d + 3)) (.assignOp .add (.field (.var .self) .length) (.int .usize 1))
        ((.off, .usize (s.length % 64)) :: (.b, .u8 b) :: updateEnv data ({ s with buffer := s.buffer.set (s.length % 64) b }, blk)) =
        (.error (.panic .overflow), (.off, .usize (s.length % 64)) :: (.b, .u8 b) ::
          updateEnv data ({ s with buffer := s.buffer.set (s.length % 64) b }, blk)) := by
      refine assignOp_left _ (v := .usize 1) (w := .usize s.length) (p := ⟨.self, [.fld .length]⟩) ?_ ?_ ?_ ?_
      · rw [ctxU_erase]; evaluate []
      · rw [ctxU_erase]; evaluate []
      · unfold updateEnv; evaluate []
      · show usizeBin T .add s.length 1 = _
        simp only [usizeBin, Target.add, if_neg (Nat.not_lt.mpr hl), hc]; rfl
    have h3 : evalU (ctxU T F (d + 3)) updateStep ((.b, .u8 b) :: updateEnv data (s, blk)) =
        (.error (.panic .overflow), (.b, .u8 b) :: updateEnv data ({ s with buffer := s.buffer.set (s.length % 64) b }, blk)) :=
      evalU_block_panics (ctxU T F (d + 3)) (post := _ :: _) h1 h2
    show ((inScopeU _ _).1 >>= _, (inScopeU _ _).2) = _
    have h4 : inScopeU (hold (bindPat (.var .b) (.u8 b)) >>= fun _ => evalU (ctxU T F (d + 3)) updateStep) (updateEnv data (s, blk)) =
        (.error (.panic .overflow), updateEnv data ({ s with buffer := s.buffer.set (s.length % 64) b }, blk)) := by
      have h5 : (hold (bindPat (.var .b) (.u8 b)) >>= fun _ => evalU (ctxU T F (d + 3)) updateStep) (updateEnv data (s, blk)) =
          evalU (ctxU T F (d + 3)) updateStep ((.b, .u8 b) :: updateEnv data (s, blk)) := rfl
      unfold inScopeU
      rw [h5, h3]
      rfl
    rw [h4]
    rfl
  · rw [hb] at hn
    exact hE.ok hn

theorem updateByte_small {b : U8} {st st' : SHA256 × Vector U32 16} (h : SHA256.updateByte T b st = .ok st') :
    st'.1.length < 2 ^ T.bits := by
  obtain ⟨s, blk⟩ := st
  unfold SHA256.updateByte at h
  have hlt : s.length % BLOCK_SIZE < 64 := Nat.mod_lt _ (by decide)
  simp only [vupd_ok _ _ _ hlt, ok_bind, fill_block_eq] at h
  rcases ha : T.add s.length 1 with e | n
  · rw [ha] at h
    cases h
  · rw [ha] at h
    have hn : n < 2 ^ T.bits := by
      unfold Target.add at ha
      split at ha
      · cases ha; assumption
      · split at ha
        · cases ha
        · cases ha; exact Nat.mod_lt _ (Nat.two_pow_pos _)
    simp only [ok_bind] at h
    split at h
    · cases h; exact hn
    · rw [process_block_eq _ _ (fun t => Spec.be32At _ (4 * t)) (fun j hj => by simp; rfl)] at h
      cases h; exact hn

theorem updateByte_length {b : U8} {st st' : SHA256 × Vector U32 16} (h : SHA256.updateByte T b st = .ok st') (hc : T.checks = true) :
    st'.1.length = st.1.length + 1 ∧ st.1.length + 1 < 2 ^ T.bits := by
  obtain ⟨s, blk⟩ := st
  unfold SHA256.updateByte at h
  have hlt : s.length % BLOCK_SIZE < 64 := Nat.mod_lt _ (by decide)
  simp only [vupd_ok _ _ _ hlt, ok_bind, fill_block_eq] at h
  rcases ha : T.add s.length 1 with e | n
  · rw [ha] at h
    cases h
  · rw [ha] at h
    have hn : n = s.length + 1 ∧ s.length + 1 < 2 ^ T.bits := by
      unfold Target.add at ha
      split at ha
      · cases ha; exact ⟨rfl, by assumption⟩
      · cases ha
    simp only [ok_bind] at h
    split at h
    · cases h; exact hn
    · rw [process_block_eq _ _ (fun t => Spec.be32At _ (4 * t)) (fun j hj => by simp; rfl)] at h
      cases h; exact hn

/-- What `update` leaves: the new state, or after a panic a state with the largest length there is. -/
theorem left_update (s : SHA256) (hs : s.length < 2 ^ T.bits) (data : List U8) :
    match s.update T data with
    | .ok s' => callU T crate F (d + 4) .sha256_SHA256_update [encSha s, bytes data] = (.ok .unit, [encSha s']) ∧
        s'.length < 2 ^ T.bits ∧ (T.checks = true → s.length ≤ s'.length)
    | .error p => ∃ l : SHA256, callU T crate F (d + 4) .sha256_SHA256_update [encSha s, bytes data] =
        (.error (.panic p), [encSha l]) ∧ p = .overflow ∧ T.checks = true ∧ l.length < 2 ^ T.bits ∧ 2 ^ T.bits ≤ l.length + 1 := by
  have hloop := forLoopU_model
    (step := fun b : U8 => hold (bindPat (.var .b) (.u8 b)) >>= fun _ => evalU (ctxU T F (d + 3)) updateStep)
    (updateEnv data) (fun st => st.1.length < 2 ^ T.bits ∧ (T.checks = true → s.length ≤ st.1.length))
    (fun p l => p = .overflow ∧ T.checks = true ∧ l.1.length < 2 ^ T.bits ∧ 2 ^ T.bits ≤ l.1.length + 1) (SHA256.updateByte T) data
    (fun b _ st hst => by
      have h := left_updateByte T F d data b st
      rcases hb : SHA256.updateByte T b st with p | st' <;> rw [hb] at h
      · obtain ⟨l, h1, h5, h2, h3, h4⟩ := h
        exact ⟨l, h1, h5, h3, by rw [h2]; exact hst.1, by rw [h2]; exact h4⟩
      · exact ⟨h, updateByte_small T hb, fun hc => by have := (updateByte_length T hb hc).1; have := hst.2 hc; omega⟩)
    (s, Vector.replicate 16 0) ⟨hs, fun _ => Nat.le_refl _⟩
  have hbody : evalU (ctxU T F (d + 3)) Gen.fn_sha256_SHA256_update.body [(.self, encSha s), (.data, bytes data)] =
      inScopeU (fun _ => forLoopU
        (fun b : U8 => hold (bindPat (.var .b) (.u8 b)) >>= fun _ => evalU (ctxU T F (d + 3)) updateStep) data
          (updateEnv data (s, Vector.replicate 16 0))) [(.self, encSha s), (.data, bytes data)] := by
    show evalU _ (.block [_] (.for (.var .b) (.var .data) updateStep)) _ = _
    rw [evalU_block]
    unfold inScopeU
    rw [evalSeqU_cons (env' := [(.block, words (Vector.replicate 16 0#32).toList), (.self, encSha s), (.data, bytes data)]) (v := .unit),
      evalSeqU_nil, evalU_for (xs := data.map .u8) (env' := updateEnv data (s, Vector.replicate 16 0)), forLoopU_map]
    · rw [ctxU_erase]; unfold updateEnv; evaluate []
    · rw [ctxU_erase]; evaluate [usizeDiv]
  have hu := update_eq_map T s data (Vector.replicate 16 0)
  rw [hu]
  have hout : ∀ (r : R (Ctl Val)) (l : SHA256 × Vector U32 16),
      forLoopU (fun b : U8 => hold (bindPat (.var .b) (.u8 b)) >>= fun _ => evalU (ctxU T F (d + 3)) updateStep) data
          (updateEnv data (s, Vector.replicate 16 0)) = (r, updateEnv data l) →
      evalU (ctxU T F (d + 3)) Gen.fn_sha256_SHA256_update.body [(.self, encSha s), (.data, bytes data)] =
        (r, [(.self, encSha l.1), (.data, bytes data)]) := by
    intro r l h
    rw [hbody]
    unfold inScopeU
    rw [h]
    rfl
  rcases hf : forEach data (s, Vector.replicate 16 0) (SHA256.updateByte T) with p | st <;> rw [hf] at hloop
  · obtain ⟨l, h1, h2⟩ := hloop
    refine ⟨l.1, ?_, h2⟩
    exact callU_eq T F (d + 3) .sha256_SHA256_update (D := Gen.fn_sha256_SHA256_update) rfl (args := [encSha s, bytes data]) (outs := [encSha l.1]) (hout _ _ h1) rfl
  · refine ⟨?_, hloop.2⟩
    exact callU_eq T F (d + 3) .sha256_SHA256_update (D := Gen.fn_sha256_SHA256_update) rfl (args := [encSha s, bytes data]) (outs := [encSha st.1]) (hout _ _ hloop.1) rfl

theorem digest_outcome (s : SHA256) (hs : s.length < 2 ^ T.bits) :
    match s.digest T with
    | .ok r => r.1.length = s.length ∧ (T.checks = true → s.length * 8 < 2 ^ T.bits)
    | .error p => p = .overflow ∧ T.checks = true ∧ 2 ^ T.bits ≤ s.length * 8 := by
  have hR : Verif.Sha256.R T s ⟨s.h, s.buffer.toList.take (s.length % 64), s.length⟩ :=
    ⟨rfl, (Nat.mod_eq_of_lt hs).symm, by have := Nat.mod_lt s.length (show 0 < 64 by decide); simp; omega, by simp⟩
  by_cases h : T.checks = false ∨ s.length * 8 < 2 ^ T.bits
  · obtain ⟨s', o, h1, h2, _⟩ := digest_R T s _ hR (by rwa [Nat.mod_eq_of_lt hs])
    rw [h1]
    refine ⟨?_, fun hc => by simpa [hc] using h⟩
    rw [h2.len]
    exact Nat.mod_eq_of_lt hs
  · have hc : T.checks = true := by simpa using fun h' => h (.inl h')
    have hb : 2 ^ T.bits ≤ s.length * 8 := Nat.not_lt.mp fun h' => h (.inr h')
    rw [digest_panic T s _ hR hc (by rwa [Nat.mod_eq_of_lt hs])]
    exact ⟨rfl, hc, hb⟩

/-- A call whose second argument panics. -/
theorem args_panics (K : CtxU) {f : Fn} {p e : Expr} {env env2 : Env} {q : Path} {er : Err} (hs : K.sig f = [.mutRef, .val])
    (hp : evalPlace K.erase p env = .ok (.val q, env)) (he : evalU K e env = (.error er, env2)) :
    evalU K (.call f [p, e]) env = (.error er, env2) := by
  rw [evalU, hs, evalArgsU]
  show thenU (thenU (evalPlaceU K p env) _) _ = _
  rw [(evalPlaceU_erase K p).ok hp]
  show thenU (thenU (evalArgsU K [.val] [e] env) _) _ = _
  rw [evalArgsU]
  show thenU (thenU (thenU (evalU K e env) _) _) _ = _
  rw [he]
  rfl

/-- A call whose second argument panics without writing to `x`. -/
theorem args_left (K : CtxU) {f : Fn} {p e : Expr} {env : Env} {q : Path} {er : Err} (x : Id) (hs : K.sig f = [.mutRef, .val])
    (hp : evalPlace K.erase p env = .ok (.val q, env)) (he : eval K.erase e env = .error er) (hx : noWrite K.sig x e = true) :
    ∃ env2, evalU K (.call f [p, e]) env = (.error er, env2) ∧ Keeps x env env2 := by
  refine ⟨(evalU K e env).2, args_panics K hs hp ?_, evalU_keeps K x e hx env⟩
  rw [← evalU_error K he]

/-- A call that panics: what its `&mut` parameters were is copied back. -/
theorem call_left (K : CtxU) {f : Fn} {args : List Expr} {env env1 env2 : Env} {as : List Arg} {vs outs : List Val} {er : Err} {u : Val}
    (ha : evalArgs K.erase (K.sig f) args env = .ok (.val as, env1)) (hr : readArgs as env1 = .ok (.val vs, env1))
    (hc : K.call f vs = (.error er, outs)) (hw : writeArgs as outs env1 = .ok (.val u, env2)) :
    evalU K (.call f args) env = (.error er, env2) := by
  rw [evalU]
  show thenU (evalArgsU K (K.sig f) args env) _ = _
  rw [(evalArgsU_erase K _ _).ok ha]
  show thenU (hold (readArgs as) env1) _ = _
  unfold hold
  rw [hr]
  show callStepU K f vs as env1 = _
  unfold callStepU
  simp only [hc, hw]
  rfl

/-- What `digest` leaves: after a panic, a state of the same length. -/
theorem left_digest (s : SHA256) (hs : s.length < 2 ^ T.bits) :
    match s.digest T with
    | .ok r => callU T crate F (d + 4) .sha256_SHA256_digest [encSha s] = (.ok (bytes r.2.toList), [encSha r.1])
    | .error p => ∃ l : SHA256, callU T crate F (d + 4) .sha256_SHA256_digest [encSha s] = (.error (.panic p), [encSha l]) ∧
        p = .overflow ∧ l.length = s.length := by
  have hd := src_digest T F d s
  have ho := digest_outcome T s hs
  rcases hr : s.digest T with p | ⟨s', o⟩ <;> rw [hr] at hd ho
  · obtain ⟨rfl, hc, hl⟩ := ho
    have hpre : ∃ (l : SHA256) (blk off ov : Val), l.length = s.length ∧
        evalSeq (ctxU T F (d + 3)).erase
          [.let (.var .block) (.repeat (.int .u32 0) (.bin .div (.const .sha256_BLOCK_SIZE) (.int .usize 4))),
           .let (.var .off) (.bin .rem (.field (.var .self) .length) (.const .sha256_BLOCK_SIZE)),
           .for (.var .i) (.range (.var .off) (.prim .len [.field (.var .self) .buffer]))
             (.block [.assign (.index (.field (.var .self) .buffer) (.var .i)) (.int .u8 0)] .unit),
           .let (.var .has_overflow)
             (.bin .gt (.bin .add (.var .off) (.int .usize 9)) (.const .sha256_BLOCK_SIZE)),
           .ite (.var .has_overflow)
             (.block
                [.assignOp .or (.index (.field (.var .self) .buffer) (.var .off)) (.int .u8 128),
                 .call .sha256_fill_block [.field (.var .self) .buffer, .var .block],
                 .call .sha256_SHA256_process_block [.var .self, .var .block],
                 .assign (.var .off) (.int .usize 0),
                 .assign (.field (.var .self) .buffer) (.repeat (.int .u8 0) (.const .sha256_BLOCK_SIZE))]
                .unit)
             .unit,
           .let (.var .len_off) (.bin .sub (.prim .len [.field (.var .self) .buffer]) (.int .usize 8))] .unit
          [(.self, encSha s)] =
        .ok (.val .unit, [(.len_off, .usize 56), (.has_overflow, ov), (.off, off), (.block, blk), (.self, encSha l)]) := by
      rw [ctxU_erase]
      have hlt : s.length % 64 < 64 := Nat.mod_lt _ (by decide)
      have hz : ∃ b : Vector U8 64, forRange (s.length % 64) 64 s.buffer (fun i b => vupd b i 0) = .ok b := by
        obtain ⟨b, h, _⟩ := clear_eq s.buffer (s.length % 64) (by omega)
        exact ⟨b, h⟩
      obtain ⟨b, hb⟩ := hz
      evaluate [forLoop_map, usizeDiv, Target.rem, BLOCK_SIZE]
      generalize Vector.replicate 16 0#32 = z
      erw [forLoop_model (fun b : Vector U8 64 => [(.off, .usize (s.length % 64)),
        (.block, words z.toList), (.self, encSha { s with buffer := b })])
        (forRange (s.length % 64) 64 s.buffer fun i b => vupd b i 0) rfl]
      · rw [hb]
        by_cases hov : 64 < s.length % 64 + 9
        · obtain ⟨blk1, h1, h2'⟩ := fill_process_eq { s with buffer := b.set (s.length % 64) (b[s.length % 64] ||| 0x80) hlt }
            (b.set (s.length % 64) (b[s.length % 64] ||| 0x80) hlt) z
          obtain ⟨hh, h2⟩ : ∃ hh, SHA256.process_block ⟨s.h, b.set (s.length % 64) (b[s.length % 64] ||| 0x80) hlt, s.length⟩ blk1 =
            .ok ⟨hh, b.set (s.length % 64) (b[s.length % 64] ||| 0x80) hlt, s.length⟩ := ⟨_, h2'⟩
          clear h2'
          refine ⟨⟨hh, Vector.replicate 64 0#8, s.length⟩, rfl, .seq (blk1.toList.map .u32), .usize 0, .bool true, ?_⟩
          evaluate [Small.add, Small.sub, hov, vidx_ok _ _ hlt, vupd_ok _ _ _ hlt]
          erw [h1]
          evaluate []
          erw [h2]
          evaluate []
        · refine ⟨{ s with buffer := b }, rfl, ?_⟩
          evaluate [Small.add, Small.sub, hov]
      · intro i _ b k
        evaluate []
    obtain ⟨l, blk, off, ov, hll, hpre⟩ := hpre
    refine ⟨l, ?_, rfl, hll⟩
    obtain ⟨env2, h2, hk⟩ := args_left (ctxU T F (d + 3)) (f := .sha256_write_u64_be)
      (p := .sliceFrom (.field (.var .self) .buffer) (.var .len_off))
      (e := .cast (.bin .mul (.field (.var .self) .length) (.int .usize 8)) .u64)
      (env := [(.len_off, .usize 56), (.has_overflow, ov), (.off, off), (.block, blk), (.self, encSha l)])
      (q := ⟨.self, [.fld .buffer, .rng 56 64]⟩) (er := .panic .overflow) .self rfl
      (by rw [ctxU_erase]; evaluate []) (by rw [ctxU_erase]; evaluate [Target.mul, hc, hll, hl, Nat.not_lt.mpr hl]) rfl
    have h3 : evalU (ctxU T F (d + 3)) Gen.fn_sha256_SHA256_digest.body [(.self, encSha s)] =
        (.error (.panic .overflow), env2.drop (env2.length - 1)) :=
      evalU_block_panics (ctxU T F (d + 3)) (post := _ :: _) hpre h2
    refine callU_eq T F (d + 3) .sha256_SHA256_digest (D := Gen.fn_sha256_SHA256_digest) rfl (args := [encSha s]) (outs := [encSha l]) h3 ?_
    have hk2 : Keeps .self [(.self, encSha l)] env2 :=
      hk.push [(.len_off, .usize 56), (.has_overflow, ov), (.off, off), (.block, blk)]
    have hle : 1 ≤ env2.length := hk2.le
    have hg := hk2.drop.getVar (by simp; omega)
    show (do let v ← getVar .self (env2.drop (env2.length - 1)); let vs ← Except.ok []; Except.ok (v :: vs)) = _
    erw [hg]
    rfl
  · exact callU_ok hd

end Verif.Source
