import Verif.Source.LeftSha
import Verif.Source.Refine.Pbkdf2
import Verif.Props.Pbkdf2

/-! A panic of `pbkdf2_sha256` (src/pbkdf2.rs) leaves the output buffer as it was. -/

set_option linter.constructorNameAsVariable false
set_option backward.isDefEq.respectTransparency false

namespace Verif.Source
open Verif Verif.Sha256 Verif.Hmac Verif.Pbkdf2

theorem evalSeqU_append (K : CtxU) (pre ss : List Expr) (e : Expr) :
    evalSeqU K (pre ++ ss) e = (evalListU K pre >>= fun _ => evalSeqU K ss e) := by
  funext env
  induction pre generalizing env with
  | nil => rw [evalListU]; rfl
  | cons t ts ih =>
    show thenU (evalU K t env) _ = thenU (evalListU K (t :: ts) env) _
    rw [evalListU]
    show _ = thenU (thenU (evalU K t env) _) _
    rcases evalU K t env with ⟨r | ⟨a | v | _⟩, env'⟩
    · rfl
    · show evalSeqU K (ts ++ ss) e env' = thenU (thenU (evalListU K ts env') _) _
      rw [ih env']
      show thenU (evalListU K ts env') _ = _
      rcases evalListU K ts env' with ⟨r | ⟨a | v | _⟩, env''⟩ <;> rfl
    · rfl
    · rfl

/-- A panic leaves `x` as it was. -/
def KpErr {α : Type} (x : Id) (e : EU α) : Prop := ∀ env er, (e env).1 = .error er → Keeps x env (e env).2

namespace KpErr
variable {α β : Type} {x : Id}

theorem of {e : EU α} (h : Kp x e) : KpErr x e := fun env _ _ => h env

theorem bind {e : EU α} {f : α → EU β} (h : Kp x e) (hf : ∀ a, KpErr x (f a)) : KpErr x (e >>= f) := by
  intro env er he
  replace he : (thenU (e env) f).1 = _ := he
  show Keeps x env (thenU (e env) f).2
  have hk := h env
  rcases hx : e env with ⟨r | ⟨a | v | _⟩, env'⟩ <;> rw [hx] at hk he
  · exact hk
  · exact hk.trans (hf a env' er he)
  · cases he
  · cases he

/-- Nothing after it panics. -/
theorem last {e : EU α} {f : α → EU β} (h : KpErr x e) (hf : ∀ a env er, (f a env).1 ≠ .error er) : KpErr x (e >>= f) := by
  intro env er he
  replace he : (thenU (e env) f).1 = _ := he
  show Keeps x env (thenU (e env) f).2
  have hk := h env
  rcases hx : e env with ⟨r | ⟨a | v | _⟩, env'⟩ <;> rw [hx] at hk he
  · exact hk r rfl
  · exact absurd he (hf a env' er)
  · cases he
  · cases he

theorem inScope {e : EU α} (h : KpErr x e) : KpErr x (inScopeU e) := fun env er he => (h env er he).drop

theorem absorb {e : EU Val} (h : KpErr x e) : KpErr x (absorbU e) := by
  intro env er he
  replace he : ((e env).1 >>= _) = _ := he
  rcases hx : (e env).1 with r | c <;> rw [hx] at he
  · exact h env r hx
  · cases c <;> cases he

/-- A change that is made as a whole or not at all. -/
theorem hold (e : E α) : KpErr x (Source.hold e) := by
  intro env er he
  unfold Source.hold at he ⊢
  rcases hx : e env with r | ⟨c, env'⟩ <;> rw [hx] at he
  · exact Keeps.refl x env
  · cases he

/-- A library function that changes a place. -/
theorem mutPrim (K : CtxU) (p : MutPrim) (y : Expr) (args : List Expr) (hy : Kp x (evalPlaceU K y)) (ha : Kp x (evalListU K args)) :
    KpErr x (evalU K (.mutPrim p y args)) := by
  rw [evalU]
  refine bind hy fun path => bind (Kp.read _) fun v => bind ha fun vs => bind (Kp.lift _) fun r => last (hold _) ?_
  intro a env er h
  cases h

/-- A block with a last statement of that kind. -/
theorem block (K : CtxU) (pre : List Expr) (s : Expr) (hp : Kp x (evalListU K pre)) (hs : KpErr x (evalU K s)) :
    KpErr x (evalU K (.block (pre ++ [s]) .unit)) := by
  rw [evalU_block]
  refine inScope ?_
  rw [evalSeqU_append]
  refine bind hp fun _ => last hs ?_
  intro a env er h
  rw [evalSeqU, evalU] at h
  cases h

end KpErr

variable (T : Target) (F d : Nat)

/-- What a block of the output does before it is written. -/
def pbkdf2Pre : List Expr :=
  [.let (.var .ctr)
     (.array
        [.cast (.bin .shr (.var .i) (.int .i32 24)) .u8,
         .cast (.bin .shr (.var .i) (.int .i32 16)) .u8,
         .cast (.bin .shr (.var .i) (.int .i32 8)) .u8,
         .cast (.var .i) .u8]),
   .let (.var .hmac) (.call .hmac_HMac_new [.var .password]),
   .call .hmac_HMac_update [.var .hmac, .var .salt],
   .call .hmac_HMac_update [.var .hmac, .var .ctr],
   .let (.var .u) (.call .hmac_HMac_digest [.var .hmac]),
   .let (.var .t) (.var .u),
   .for (.var ._j) (.rangeIncl (.int .usize 2) (.var .c))
     (.block
        [.let (.var .hmac) (.call .hmac_HMac_new [.var .password]),
         .call .hmac_HMac_update [.var .hmac, .var .u],
         .assign (.var .u) (.call .hmac_HMac_digest [.var .hmac])]
        (.for (.var .k) (.range (.int .usize 0) (.prim .len [.var .u]))
           (.block [.assignOp .xor (.index (.var .t) (.var .k)) (.index (.var .u) (.var .k))] .unit))),
   .let (.var .start) (.bin .mul (.bin .sub (.var .i) (.int .usize 1)) (.const .sha256_DIGEST_SIZE)),
   .let (.var .«end»)
     (.prim .min [.bin .mul (.var .i) (.const .sha256_DIGEST_SIZE), .prim .len [.var .out]])]

/-- The writing of it. -/
def pbkdf2Copy : Expr :=
  .mutPrim .copyFromSlice (.slice (.var .out) (.var .start) (.var .«end»))
    [.sliceTo (.var .t) (.bin .sub (.var .«end») (.var .start))]

def pbkdf2Body : Expr := .block (pbkdf2Pre ++ [pbkdf2Copy]) .unit

theorem pbkdf2Body_keeps : KpErr .out (hold (bindPat (.var .i) (.usize 1)) >>= fun _ => evalU (ctxU T F d) pbkdf2Body) := by
  refine .bind (Kp.bindPat _ _) fun _ => .block _ _ _ ?_ (.mutPrim _ _ _ _ ?_ ?_)
  · exact evalListU_keeps _ _ _ rfl
  · exact evalPlaceU_keeps _ _ _ rfl
  · exact evalListU_keeps _ _ _ rfl

/-- The variables of the loop over the blocks. -/
def pbkdf2Env (password salt : List U8) (c l : Nat) (o : List U8) : Env :=
  [(.l, .usize l), (.password, bytes password), (.salt, bytes salt), (.c, .usize c), (.out, bytes o)]

theorem pbkdf2_step (password salt o : List U8) (c l i : Nat) (hi : 1 ≤ i) (h1 : i * 32 < 2 ^ T.bits) (h0 : (i - 1) * 32 ≤ o.length)
    (k : Env → R (Ctl Val × Env)) :
    nextIter (inScope (bindPat (.var .i) (.usize i) >>= fun _ => eval (ctx T F (d + 6)) pbkdf2Body) (pbkdf2Env password salt c l o)) k =
      up (blockStep T password salt c i o) >>= fun o' => k (pbkdf2Env password salt c l o') := by
  unfold pbkdf2Env pbkdf2Body pbkdf2Pre pbkdf2Copy
  have h2 : (i - 1) * 32 < 2 ^ T.bits := by omega
  evaluate [blockStep, T.mul_ok h1, T.mul_ok h2, Small.sub, forLoop_map, Small.ushr]
  refine R.bind_congr fun s1 => ?_
  refine R.bind_congr fun s2 => ?_
  refine R.bind_congr fun s3 => ?_
  refine R.bind_congr fun r => ?_
  erw [forLoop_model (fun s : Vector U8 32 × Vector U8 32 => [(.t, bytes s.2.toList), (.u, bytes s.1.toList),
    (.hmac, encHMac r.1), (.ctr, .seq [.u8 (BitVec.ofNat 8 (i >>> 24)), .u8 (BitVec.ofNat 8 (i >>> 16)),
      .u8 (BitVec.ofNat 8 (i >>> 8)), .u8 (BitVec.ofNat 8 i)]),
    (.i, .usize i), (.l, .usize l), (.password, bytes password),
    (.salt, bytes salt), (.c, .usize c), (.out, bytes o)])
    (forRangeIncl 2 c (r.2, r.2) (iterStep T password)) rfl]
  · have e1 : (i - 1) * 32 ≤ min (i * 32) o.length := by omega
    have e2 : min (i * 32) o.length ≤ o.length := by omega
    have e3 : min (i * 32) o.length - (i - 1) * 32 ≤ 32 := by omega
    evaluate [T.mul_ok h1, T.mul_ok h2, show T.sub i 1 = _ from Small.sub T hi]
    generalize min (i * 32) o.length = e at *
    evaluate [Small.sub, copyFromSlice, slice, e1, e2, e3, show e ≤ 32 + (i - 1) * 32 by omega, Nat.min_eq_left]
  · intro j _ s k
    evaluate [iterStep, forLoop_map]
    refine R.bind_congr fun s1 => ?_
    refine R.bind_congr fun s2 => ?_
    refine R.bind_congr fun r' => ?_
    erw [forLoop_model (fun t : Vector U8 32 => [(.hmac, encHMac r'.1), (._j, .usize j), (.t, bytes t.toList),
      (.u, bytes r'.2.toList),
      (.hmac, encHMac r.1), (.ctr, .seq [.u8 (BitVec.ofNat 8 (i >>> 24)), .u8 (BitVec.ofNat 8 (i >>> 16)),
        .u8 (BitVec.ofNat 8 (i >>> 8)), .u8 (BitVec.ofNat 8 i)]),
      (.i, .usize i), (.l, .usize l), (.password, bytes password),
      (.salt, bytes salt), (.c, .usize c), (.out, bytes o)]) (xorInto s.2 r'.2) rfl]
    · evaluate []
    · intro n hn t k
      simp [src] at hn
      evaluate [vidx_ok]

/-- A panic of `pbkdf2_sha256` leaves the buffer as it was. -/
theorem left_pbkdf2 (password salt out : List U8) (c : Nat) (ho : out.length ≤ T.isizeMax) {p : Panic}
    (h : pbkdf2_sha256 T password salt c out = .error p) :
    callU T crate F (d + 7) .pbkdf2_pbkdf2_sha256 [bytes password, bytes salt, .usize c, bytes out] =
      (.error (.panic p), [bytes out]) := by
  have hck : T.checks = true := by
    rcases hc : T.checks with _ | _
    · rw [Props.Pbkdf2.C08_pbkdf2_unchecked T hc password salt c out ho] at h
      cases h
    · rfl
  obtain ⟨hne, hbig⟩ := (Props.Pbkdf2.C08_pbkdf2_panics_iff T hck password salt c out ho).mp ⟨p, h⟩
  have hbig' := hbig.imp id fun h => show 2 ^ T.bits ≤ 8 * (68 + salt.length) by omega
  have h0 := List.length_pos_iff.mpr hne
  obtain rfl : p = .overflow := by
    rw [pbkdf2_err T password salt c out hck hbig' h0] at h
    cases h; rfl
  have hb : out.length + 32 < 2 ^ T.bits := by
    rcases T.bits_cases with h | h <;> simp only [Target.isizeMax, h] at ho ⊢ <;> omega
  obtain ⟨l, hl⟩ : ∃ l, (out.length + 31) / 32 = l + 1 := ⟨(out.length + 31) / 32 - 1, by omega⟩
  have hblk : blockStep T password salt c 1 out = .error .overflow := by
    have e : blockStep T password salt c 1 out = (derive_block T password salt c 1 >>= fun t => do
        let start ← T.mul (← T.sub 1 1) 32
        let endm ← T.mul 1 32
        let src ← slice t.toList 0 (← T.sub (min endm out.length) start)
        copyFromSlice out start (min endm out.length) src) := by
      simp only [derive_block, bind_assoc]
      rfl
    rw [e, derive_block_err T password salt c 1 hck hbig']
    rfl
  -- the first round
  have hs := pbkdf2_step T F d password salt out c (l + 1) 1 (Nat.le_refl _) (by have := T.two_pow_ge; omega) (by omega)
    fun env => .ok (.val .unit, env)
  rw [hblk] at hs
  have hE : Eu (absorbU (inScopeU (hold (bindPat (.var .i) (.usize 1)) >>= fun _ => evalU (ctxU T F (d + 6)) pbkdf2Body)))
      (absorb (inScope (bindPat (.var .i) (.usize 1) >>= fun _ => eval (ctxU T F (d + 6)).erase pbkdf2Body))) :=
    .absorb (.inScope (.bind (.hold _) fun _ => evalU_erase _ _))
  have hn : absorb (inScope (bindPat (.var .i) (.usize 1) >>= fun _ => eval (ctxU T F (d + 6)).erase pbkdf2Body))
      (pbkdf2Env password salt c (l + 1) out) = .error (.panic .overflow) := by
    rw [ctxU_erase]
    refine Eq.trans ?_ hs
    show (inScope _ _ >>= _) = (inScope _ _ >>= _)
    congr 1
  have h1 := hE.error hn
  have h2 := (pbkdf2Body_keeps T F (d + 6)).inScope.absorb _ _ h1
  have hbody : evalU (ctxU T F (d + 6)) (.for (.var .i) (.rangeIncl (.int .usize 1) (.var .l)) pbkdf2Body)
      (pbkdf2Env password salt c (l + 1) out) = forLoopU
        (fun x => hold (bindPat (.var .i) x) >>= fun _ => evalU (ctxU T F (d + 6)) pbkdf2Body)
        ((List.range' 1 (l + 1)).map .usize) (pbkdf2Env password salt c (l + 1) out) := by
    rw [evalU_for (xs := (List.range' 1 (l + 1)).map .usize) (env' := pbkdf2Env password salt c (l + 1) out)]
    rw [ctxU_erase]; unfold pbkdf2Env; evaluate []
  rw [List.range'_succ, List.map_cons] at hbody
  generalize hr : absorbU (inScopeU (hold (bindPat (.var .i) (.usize 1)) >>= fun _ => evalU (ctxU T F (d + 6)) pbkdf2Body))
    (pbkdf2Env password salt c (l + 1) out) = r at h1 h2
  obtain ⟨r, env2⟩ := r
  obtain rfl : r = .error (.panic .overflow) := h1
  have h3 : evalU (ctxU T F (d + 6)) (.for (.var .i) (.rangeIncl (.int .usize 1) (.var .l)) pbkdf2Body)
      (pbkdf2Env password salt c (l + 1) out) = (.error (.panic .overflow), env2) := by
    rw [hbody]
    show thenU (absorbU (inScopeU _) _) _ = _
    rw [hr]
    rfl
  have hpre : evalSeq (ctxU T F (d + 6)).erase
      [.let (.var .l)
         (.bin .div
            (.bin .sub (.bin .add (.prim .len [.var .out]) (.const .sha256_DIGEST_SIZE)) (.int .usize 1))
            (.const .sha256_DIGEST_SIZE))] .unit
      [(.password, bytes password), (.salt, bytes salt), (.c, .usize c), (.out, bytes out)] =
      .ok (.val .unit, pbkdf2Env password salt c (l + 1) out) := by
    rw [ctxU_erase]
    unfold pbkdf2Env
    evaluate [usizeDiv, T.add_ok hb, Small.sub, hl]
  have h4 : evalU (ctxU T F (d + 6)) Gen.fn_pbkdf2_pbkdf2_sha256.body
      [(.password, bytes password), (.salt, bytes salt), (.c, .usize c), (.out, bytes out)] =
      (.error (.panic .overflow), env2.drop (env2.length - 4)) :=
    evalU_block_panics_last (ctxU T F (d + 6)) hpre h3
  refine callU_eq T F (d + 6) .pbkdf2_pbkdf2_sha256 (D := Gen.fn_pbkdf2_pbkdf2_sha256) rfl
    (args := [bytes password, bytes salt, .usize c, bytes out]) (outs := [bytes out]) h4 ?_
  have hk : Keeps .out [(.password, bytes password), (.salt, bytes salt), (.c, .usize c), (.out, bytes out)] env2 :=
    Keeps.push [(.l, .usize (l + 1))] h2
  have hle : 4 ≤ env2.length := hk.le
  have hg := hk.drop.getVar (by simp; omega)
  show (do let v ← getVar .out (env2.drop (env2.length - 4)); let vs ← Except.ok []; Except.ok (v :: vs)) = _
  erw [hg]
  rfl

end Verif.Source
