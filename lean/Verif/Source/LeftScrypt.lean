import Verif.Source.LeftPbkdf2
import Verif.Source.Refine.Scrypt

/-! A panic of `Scrypt::derive` (src/scrypt.rs) leaves the output buffer as it was. -/

set_option linter.constructorNameAsVariable false
set_option backward.isDefEq.respectTransparency false

namespace Verif.Source
open Verif Verif.Sha256 Verif.Pbkdf2 Verif.Scrypt

variable (T : Target) (F d : Nat)

/-- `derive` before its last statement. -/
def derivePre : List Expr :=
  [.ite (.bin .lt (.field (.var .self) .r) (.int .usize 1))
     (.block [.return (.ctor .Err [.ctor .ScryptError_RIsTooSmall []])] .unit)
     .unit,
   .ite (.bin .lt (.field (.var .self) .n) (.int .usize 1))
     (.block [.return (.ctor .Err [.ctor .ScryptError_NIsTooSmall []])] .unit)
     .unit,
   .ite
     (.bin .ne (.bin .and (.bin .sub (.field (.var .self) .n) (.int .usize 1)) (.field (.var .self) .n))
        (.int .usize 0))
     (.block [.return (.ctor .Err [.ctor .ScryptError_NIsNotAPowerOfTwo []])] .unit)
     .unit,
   .ite (.bin .lt (.field (.var .self) .p) (.int .usize 1))
     (.block [.return (.ctor .Err [.ctor .ScryptError_PIsTooSmall []])] .unit)
     .unit,
   .let (.var .raw_b)
     (.prim (.vecRepeat .u8)
        [.int .u8 0,
         .bin .mul
           (.bin .mul (.bin .mul (.field (.var .self) .p) (.int .usize 2)) (.const .scrypt_BLOCK_SIZE))
           (.field (.var .self) .r)]),
   .call .pbkdf2_pbkdf2_sha256
     [.var .passphrase, .var .salt, .const .scrypt_PBKDF2_ROUNDS, .var .raw_b],
   .let (.var .b)
     (.map
        (.prim .chunksExact
           [.var .raw_b,
            .bin .mul (.bin .mul (.int .usize 2) (.const .scrypt_BLOCK_SIZE)) (.field (.var .self) .r)])
        (.var .chunk)
        (.block []
           (.map (.prim .chunksExact [.var .chunk, .const .scrypt_BLOCK_SIZE]) (.var .sub_chunk)
              (.var .sub_chunk)))),
   .assign (.var .b)
     (.map (.var .b) (.var .elem) (.call .scrypt_Scrypt_ro_mix [.var .self, .var .elem])),
   .let (.var .b_salt) (.prim .flatten [.prim .flatten [.var .b]])]

/-- Its last statement. -/
def deriveLast : Expr :=
  .call .pbkdf2_pbkdf2_sha256 [.var .passphrase, .var .b_salt, .const .scrypt_PBKDF2_ROUNDS, .var .out]

/-- The model of `derive` between the checks of the parameters and the last statement. -/
def deriveFront (self : Scrypt) (passphrase salt : List U8) : M (List U8 × List (List Block)) := do
  let size ← T.mul (← T.mul (← T.mul self.p 2) Scrypt.BLOCK_SIZE) self.r
  T.reserve 1 size
  let raw_b ← pbkdf2_sha256 T passphrase salt PBKDF2_ROUNDS (List.replicate size (0 : U8))
  let b ← (← chunksExact raw_b (← T.mul (2 * Scrypt.BLOCK_SIZE) self.r)).mapM (fun chunk => chunksExact chunk Scrypt.BLOCK_SIZE)
  let b ← b.mapM (fun elem => self.ro_mix T elem)
  return (raw_b, b)

def deriveEnv (self : Scrypt) (passphrase salt out : List U8) : Env :=
  [(.self, encScrypt self), (.passphrase, bytes passphrase), (.salt, bytes salt), (.out, bytes out)]

theorem derive_pre (self : Scrypt) (passphrase salt out : List U8) (hr : ¬ self.r < 1) (hn : ¬ self.n < 1)
    (hp : (self.n - 1) &&& self.n = 0) (hq : ¬ self.p < 1) :
    evalSeq (ctx T F (d + 7)) derivePre .unit (deriveEnv self passphrase salt out) =
      up (deriveFront T self passphrase salt) >>= fun r => .ok (.val .unit,
        (.b_salt, bytes r.2.flatten.flatten) :: (.b, .seq (r.2.map blocks)) :: (.raw_b, bytes r.1) ::
          deriveEnv self passphrase salt out) := by
  evaluate [derivePre, deriveEnv, deriveFront, hr, hn, hp, hq, Small.sub, Scrypt.BLOCK_SIZE, PBKDF2_ROUNDS]
  refine R.bind_congr fun _ => ?_
  refine R.bind_congr fun _ => ?_
  refine R.bind_congr fun size => ?_
  by_cases hs : size ≤ T.isizeMax
  rotate_left
  · evaluate [Target.reserve, hs]
  have h1 := src_pbkdf2 T F d passphrase salt (Vector.replicate size 0#8).toList 1 (by simpa using hs)
  simp only [bytes, Vector.toList_replicate] at h1
  simp only [Vector.toList_replicate]
  generalize List.replicate size 0#8 = raw at *
  evaluate [Target.reserve, hs, h1, Small.mul]
  refine R.bind_congr fun raw => ?_
  refine R.bind_congr fun _ => ?_
  refine R.bind_congr fun cs => ?_
  rw [List.map_map]
  erw [mapLoop_model (fun c : List U8 => .seq (c.map .u8)) blocks (fun chunk => chunksExact chunk 64)]
  · evaluate []
    refine R.bind_congr fun b => ?_
    rw [mapLoop_model blocks blocks (fun elem => self.ro_mix T elem)]
    · have h3 := fun (b : List (List Block)) => flattenVals_map (fun x : Block => .seq (x.map .u8)) b
      have h4 := fun (b : List Block) => flattenVals_map Val.u8 b
      have h5 : ∀ b : List (List Block), b.map blocks = b.map fun x => .seq (x.map fun x => .seq (x.map .u8)) := fun _ => rfl
      evaluate [h3, h4, h5]
    · intro x _
      evaluate []
  · intro c _
    evaluate [blocks]
    refine R.bind_congr fun cs => ?_
    rw [List.map_map]
    erw [mapLoop_pure (fun c : List U8 => .seq (c.map .u8)) (fun c : List U8 => .seq (c.map .u8)) (fun c => c)]
    · evaluate [List.map_id']
    · intro c _
      evaluate []

theorem evalSeqU_erase (K : CtxU) (ss : List Expr) (e : Expr) : Eu (evalSeqU K ss e) (evalSeq K.erase ss e) := by
  induction ss with
  | nil => exact evalU_erase K e
  | cons s ss ih => rw [evalSeqU, evalSeq]; exact .bind (evalU_erase K s) fun _ => ih

/-- A panic of `derive` leaves the buffer as it was. -/
theorem left_derive (self : Scrypt) (passphrase salt out : List U8) (ho : out.length ≤ T.isizeMax) {p : Panic}
    (h : self.derive T passphrase salt out = .error p) :
    callU T crate F (d + 8) .scrypt_Scrypt_derive [encScrypt self, bytes passphrase, bytes salt, bytes out] =
      (.error (.panic p), [bytes out]) := by
  have hsub : ∀ h : ¬ self.n < 1, T.sub self.n 1 = .ok (self.n - 1) := fun h => T.sub_ok (by omega)
  by_cases hr : self.r < 1
  · rw [Scrypt.derive, if_pos hr] at h; cases h
  by_cases hn : self.n < 1
  · rw [Scrypt.derive, if_neg hr, if_pos hn] at h; cases h
  by_cases hp : (self.n - 1) &&& self.n ≠ 0
  · rw [Scrypt.derive, if_neg hr, if_neg hn, hsub hn, ok_bind, if_pos hp] at h; cases h
  by_cases hq : self.p < 1
  · rw [Scrypt.derive, if_neg hr, if_neg hn, hsub hn, ok_bind, if_neg hp, if_pos hq] at h; cases h
  have hm : self.derive T passphrase salt out = deriveFront T self passphrase salt >>= fun r =>
      pbkdf2_sha256 T passphrase r.2.flatten.flatten PBKDF2_ROUNDS out >>= fun o => .ok (o, .ok ()) := by
    rw [Scrypt.derive, if_neg hr, if_neg hn, hsub hn, ok_bind, if_neg hp, if_neg hq]
    simp only [deriveFront, bind_assoc]
    rfl
  have hpre := derive_pre T F d self passphrase salt out hr hn (Decidable.not_not.mp hp) hq
  rw [hm] at h
  have hbody : evalU (ctxU T F (d + 7)) Gen.fn_scrypt_Scrypt_derive.body (deriveEnv self passphrase salt out) =
      inScopeU (evalListU (ctxU T F (d + 7)) derivePre >>= fun _ => evalSeqU (ctxU T F (d + 7)) [deriveLast] (.ctor .Ok [.unit]))
        (deriveEnv self passphrase salt out) := by
    rw [← evalSeqU_append, ← evalU_block]
    rfl
  have hkp : Kp .out (evalListU (ctxU T F (d + 7)) derivePre) := evalListU_keeps _ _ _ rfl
  -- what is left, and the end of the proof
  suffices hs : ∃ env2, (evalListU (ctxU T F (d + 7)) derivePre >>= fun _ => evalSeqU (ctxU T F (d + 7)) [deriveLast] (.ctor .Ok [.unit]))
      (deriveEnv self passphrase salt out) = (.error (.panic p), env2) ∧ Keeps .out (deriveEnv self passphrase salt out) env2 by
    obtain ⟨env2, e, hk⟩ := hs
    have h4 : evalU (ctxU T F (d + 7)) Gen.fn_scrypt_Scrypt_derive.body (deriveEnv self passphrase salt out) =
        (.error (.panic p), env2.drop (env2.length - 4)) := by
      rw [hbody]; unfold inScopeU; rw [e]; rfl
    refine callU_eq T F (d + 7) .scrypt_Scrypt_derive (D := Gen.fn_scrypt_Scrypt_derive) rfl
      (args := [encScrypt self, bytes passphrase, bytes salt, bytes out]) (outs := [bytes out]) h4 ?_
    have hle : 4 ≤ env2.length := hk.le
    have h5 : (deriveEnv self passphrase salt out).length = 4 := rfl
    have hg := hk.drop.getVar (by rw [List.length_drop, h5]; omega)
    show (do let v ← getVar .out (env2.drop (env2.length - 4)); let vs ← Except.ok []; Except.ok (v :: vs)) = _
    erw [hg]
    rfl
  have hk := hkp (deriveEnv self passphrase salt out)
  have hseq : evalSeqU (ctxU T F (d + 7)) (derivePre ++ []) .unit = _ := evalSeqU_append (ctxU T F (d + 7)) derivePre [] .unit
  rw [List.append_nil] at hseq
  rw [← ctxU_erase] at hpre
  rcases hf : deriveFront T self passphrase salt with q | ⟨raw, b⟩ <;> rw [hf] at h hpre
  · obtain rfl : q = p := by cases h; rfl
    have h1 := (evalSeqU_erase (ctxU T F (d + 7)) derivePre .unit).error hpre
    rw [hseq] at h1
    replace h1 : (thenU (evalListU (ctxU T F (d + 7)) derivePre _) _).1 = _ := h1
    show ∃ env2, thenU (evalListU (ctxU T F (d + 7)) derivePre _) _ = _ ∧ _
    rcases hl : evalListU (ctxU T F (d + 7)) derivePre (deriveEnv self passphrase salt out) with ⟨r | ⟨a | v | _⟩, env'⟩ <;>
      rw [hl] at h1 hk
    · obtain rfl : r = .panic q := by cases h1; rfl
      exact ⟨env', rfl, hk⟩
    · rw [evalSeqU] at h1
      replace h1 : (evalU _ _ _).1 = _ := h1
      rw [evalU] at h1
      cases h1
    · cases h1
    · cases h1
  · have h1 := (evalSeqU_erase (ctxU T F (d + 7)) derivePre .unit).ok hpre
    have hlast := left_pbkdf2 T F d passphrase b.flatten.flatten out 1 ho (p := p) (by
      replace h : (pbkdf2_sha256 T passphrase b.flatten.flatten 1 out >>= _) = _ := h
      rcases hx : pbkdf2_sha256 T passphrase b.flatten.flatten 1 out with r | o <;> rw [hx] at h
      · cases h; rfl
      · cases h)
    have hc := call_left (ctxU T F (d + 7)) (f := .pbkdf2_pbkdf2_sha256)
      (args := [.var .passphrase, .var .b_salt, .const .scrypt_PBKDF2_ROUNDS, .var .out])
      (env := (.b_salt, bytes b.flatten.flatten) :: (.b, .seq (b.map blocks)) :: (.raw_b, bytes raw) ::
          deriveEnv self passphrase salt out)
      (env1 := (.b_salt, bytes b.flatten.flatten) :: (.b, .seq (b.map blocks)) :: (.raw_b, bytes raw) ::
          deriveEnv self passphrase salt out)
      (env2 := (.b_salt, bytes b.flatten.flatten) :: (.b, .seq (b.map blocks)) :: (.raw_b, bytes raw) ::
          deriveEnv self passphrase salt out)
      (as := [.val (bytes passphrase), .val (bytes b.flatten.flatten), .val (.usize 1), .place ⟨.out, []⟩]) (u := .unit)
      (by rw [ctxU_erase]; show evalArgs _ [.val, .val, .val, .mutRef] _ _ = _; unfold deriveEnv; evaluate [])
      (by unfold deriveEnv; evaluate []) hlast
      (by unfold deriveEnv; evaluate [])
    refine ⟨_, ?_, ⟨[(.b_salt, bytes b.flatten.flatten), (.b, .seq (b.map blocks)), (.raw_b, bytes raw)], _, rfl, sameVars_refl _ _⟩⟩
    rw [hseq] at h1
    replace h1 : thenU (evalListU (ctxU T F (d + 7)) derivePre _) _ = (_, (.b_salt, bytes b.flatten.flatten) :: (.b, .seq (b.map blocks)) ::
      (.raw_b, bytes raw) :: deriveEnv self passphrase salt out) := h1
    replace hc : evalU (ctxU T F (d + 7)) deriveLast ((.b_salt, bytes b.flatten.flatten) :: (.b, .seq (b.map blocks)) ::
      (.raw_b, bytes raw) :: deriveEnv self passphrase salt out) = (_, (.b_salt, bytes b.flatten.flatten) :: (.b, .seq (b.map blocks)) ::
      (.raw_b, bytes raw) :: deriveEnv self passphrase salt out) := hc
    show _ = (_, (.b_salt, bytes b.flatten.flatten) :: (.b, .seq (b.map blocks)) ::
      (.raw_b, bytes raw) :: deriveEnv self passphrase salt out)
    generalize ((Id.b_salt, bytes b.flatten.flatten) :: (Id.b, Val.seq (b.map blocks)) ::
      (Id.raw_b, bytes raw) :: deriveEnv self passphrase salt out) = X at h1 hc ⊢
    show thenU (evalListU (ctxU T F (d + 7)) derivePre _) _ = _
    rcases hl : evalListU (ctxU T F (d + 7)) derivePre (deriveEnv self passphrase salt out) with ⟨r | ⟨a | v | _⟩, env'⟩ <;>
      rw [hl] at h1
    · cases h1
    · rw [evalSeqU] at h1
      replace h1 : evalU _ _ _ = _ := h1
      rw [evalU] at h1
      obtain rfl : env' = X := congrArg Prod.snd h1
      show thenU (evalU (ctxU T F (d + 7)) deriveLast env') _ = _
      rw [hc]
      rfl
    · cases h1
    · cases h1

end Verif.Source
