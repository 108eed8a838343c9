import Verif.Source.CostHmac

/-! How often the compression function is called by PBKDF2. -/

set_option linter.constructorNameAsVariable false
set_option backward.isDefEq.respectTransparency false

namespace Verif.Source
open Verif Verif.Sha256 Verif.Hmac Verif.Pbkdf2

variable (T : Target) (F d : Nat)

/-- The compression function. -/
local notation "PB" => Fn.sha256_SHA256_process_block

attribute [-src] trace_for trace_forMut mutTr
attribute [local src] calls_append calls_cons calls_nil Event.isCall no_block_itself trace_for' trace_place_sliceFrom trace_place_sliceTo
  trace_forMut'

theorem expr_free {e : Expr} {env : Env} (h : avoids noBlock e = true) : calls PB (evalT (ctxT T F d) e env).1 = 0 :=
  evalT_zero (S := noBlock) (K := ctxT T F d) (fun f vs hf => ⟨(noBlock_closed f hf).1, no_block T F d f hf vs⟩) _ h env

theorem seq_free {ss : List Expr} {e : Expr} {env : Env} (h : avoidsList noBlock ss = true) (he : avoids noBlock e = true) :
    calls PB (evalSeqT (ctxT T F d) ss e env) = 0 := by
  have hK := fun f vs (hf : noBlock f = true) => And.intro (noBlock_closed f hf).1 (no_block T F d f hf vs)
  rw [← evalSeqT_eq]
  exact (Zero.bind (evalListT_zero (K := ctxT T F d) hK ss h) fun _ => evalT_zero (K := ctxT T F d) hK e he) env

/-- One round of the inner loop. -/
theorem iter_round (password : List U8) (j : Nat) (s : Vector U8 32 × Vector U8 32) (env : Env) (k : Env → R (Ctl Val × Env))
    (x y : Val) :
    nextIter (inScope (do
        let _ ← bindPat (Pat.var Id._j) (.usize j)
        eval (ctx T F (d + 6)) (Expr.block
          [Expr.let (Pat.var Id.hmac) (Expr.call Fn.hmac_HMac_new [Expr.var Id.password]),
           Expr.call Fn.hmac_HMac_update [Expr.var Id.hmac, Expr.var Id.u],
           (Expr.var Id.u).assign (Expr.call Fn.hmac_HMac_digest [Expr.var Id.hmac])]
          (Expr.for (Pat.var Id.k) ((Expr.int IntTy.usize 0).range (Expr.prim Prim.len [Expr.var Id.u]))
            (Expr.block
              [Expr.assignOp BinOp.xor ((Expr.var Id.t).index (Expr.var Id.k)) ((Expr.var Id.u).index (Expr.var Id.k))]
              Expr.unit))))
      ((.t, bytes s.2.toList) :: (.u, bytes s.1.toList) :: (.hmac, x) :: (.ctr, y) ::(.i, z) :: (.l, w) :: (.password, bytes password) :: env)) k =
    up (iterStep T password j s) >>= fun s => k ((.t, bytes s.2.toList) :: (.u, bytes s.1.toList) ::
      (.hmac, x) :: (.ctr, y) ::(.i, z) :: (.l, w) :: (.password, bytes password) :: env) := by
  evaluate [iterStep, forLoop_map]
  refine R.bind_congr fun s1 => ?_
  refine R.bind_congr fun s2 => ?_
  refine R.bind_congr fun r' => ?_
  erw [forLoop_model (fun t : Vector U8 32 => (.hmac, encHMac r'.1) :: (._j, .usize j) :: (.t, bytes t.toList) ::
    (.u, bytes r'.2.toList) ::
    (.hmac, x) :: (.ctr, y) ::(.i, z) :: (.l, w) :: (.password, bytes password) :: env) (xorInto s.2 r'.2) rfl]
  · evaluate []
  · intro n hn t k
    simp [src] at hn
    evaluate [vidx_ok]

theorem iter_calls (password : List U8) (j : Nat) (s s' : Vector U8 32 × Vector U8 32) (hs : iterStep T password j s = .ok s')
    (env : Env) (x y z w : Val) :
    calls PB (seenOfPat (ctxT T F (d + 6)) (Pat.var Id._j) (Expr.block
          [Expr.let (Pat.var Id.hmac) (Expr.call Fn.hmac_HMac_new [Expr.var Id.password]),
           Expr.call Fn.hmac_HMac_update [Expr.var Id.hmac, Expr.var Id.u],
           (Expr.var Id.u).assign (Expr.call Fn.hmac_HMac_digest [Expr.var Id.hmac])]
          (Expr.for (Pat.var Id.k) ((Expr.int IntTy.usize 0).range (Expr.prim Prim.len [Expr.var Id.u]))
            (Expr.block
              [Expr.assignOp BinOp.xor ((Expr.var Id.t).index (Expr.var Id.k)) ((Expr.var Id.u).index (Expr.var Id.k))]
              Expr.unit))) (.usize j)
      ((.t, bytes s.2.toList) :: (.u, bytes s.1.toList) :: (.hmac, x) :: (.ctr, y) ::(.i, z) :: (.l, w) :: (.password, bytes password) :: env)) =
      Counted.macCost password 32 := by
  unfold iterStep at hs
  obtain ⟨m0, e0, hs⟩ := Counted.bind_ok hs
  obtain ⟨m1, e1, hs⟩ := Counted.bind_ok hs
  obtain ⟨r', e3, hs⟩ := Counted.bind_ok hs
  have a0 := (Counted.costs_hmacNew T password).2 m0 e0
  have a1 := (Counted.costs_hmacUpdate T m0 0 a0 _).2 m1 e1
  have c0 := calls_HMac_new T F d _ _ e0
  have c1 := calls_HMac_update T F (d + 1) _ _ a0 _ _ e1
  have c3 := calls_HMac_digest T F (d + 1) _ _ a1 _ e3
  evaluate [ctxT_erase, e0, e1, e3]
  simp only [bytes] at c0 c1 c3
  rw [loop_free (h := by decide +kernel), c0, c1, c3, Vector.length_toList]
  unfold Counted.macCost
  omega

theorem calls_pbkdf2 (password salt out : List U8) (c : Nat) (ho : out.length ≤ T.isizeMax) (o : List U8)
    (h : pbkdf2_sha256 T password salt c out = .ok o) :
    calls PB (callT T crate F (d + 7) .pbkdf2_pbkdf2_sha256 [bytes password, bytes salt, .usize c, bytes out]).1 =
      (out.length + 31) / 32 * (Counted.macCost password (salt.length + 4) + (c - 1) * Counted.macCost password 32) := by
  rw [pbkdf2_model] at h
  have hb : out.length + 32 < 2 ^ T.bits := by
    rcases T.bits_cases with h | h <;> simp only [Target.isizeMax, h] at ho ⊢ <;> omega
  show calls PB (evalT (ctxT T F (d + 6)) Gen.fn_pbkdf2_pbkdf2_sha256.body [(.password, bytes password), (.salt, bytes salt),
    (.c, .usize c), (.out, bytes out)]).1 = _
  evaluate [Gen.fn_pbkdf2_pbkdf2_sha256, usizeDiv, T.add_ok hb, Small.sub, ctxT_erase]
  rw [T.add_ok hb] at h
  obtain ⟨_, e, h⟩ := Counted.bind_ok h
  cases e
  rw [T.sub_ok (by omega)] at h
  obtain ⟨_, e, h⟩ := Counted.bind_ok h
  cases e
  erw [loop_calls (g := PB) Val.usize (fun o : List U8 => [(.l, .usize ((out.length + 31) / 32)), (.password, bytes password),
    (.salt, bytes salt), (.c, .usize c), (.out, bytes o)]) (blockStep T password salt c) (fun o => o.length = out.length)
    (fun n _ => n * (Counted.macCost password (salt.length + 4) + (c - 1) * Counted.macCost password 32))
    _ (fun _ => Nat.zero_mul _) ?_ ?_ out rfl o h]
  · rw [expr_free (h := by decide +kernel)]
    simp [src]
  · intro i hi o hl k
    simp [src] at hi
    have h1 : i * 32 < 2 ^ T.bits := by omega
    have h2 : (i - 1) * 32 < 2 ^ T.bits := by omega
    evaluate [blockStep, T.mul_ok h1, T.mul_ok h2, Small.sub, hl, forLoop_map, Small.ushr]
    refine R.bind_congr fun s1 => ?_
    refine R.bind_congr fun s2 => ?_
    refine R.bind_congr fun s3 => ?_
    refine R.bind_congr fun r => ?_
    erw [forLoop_model (fun s : Vector U8 32 × Vector U8 32 => [(.t, bytes s.2.toList), (.u, bytes s.1.toList),
      (.hmac, encHMac r.1), (.ctr, .seq [.u8 (BitVec.ofNat 8 (i >>> 24)), .u8 (BitVec.ofNat 8 (i >>> 16)),
        .u8 (BitVec.ofNat 8 (i >>> 8)), .u8 (BitVec.ofNat 8 i)]),
      (.i, .usize i), (.l, .usize ((out.length + 31) / 32)), (.password, bytes password),
      (.salt, bytes salt), (.c, .usize c), (.out, bytes o)])
      (forRangeIncl 2 c (r.2, r.2) (iterStep T password)) rfl]
    · have e1 : (i - 1) * 32 ≤ min (i * 32) out.length := by omega
      have e2 : min (i * 32) out.length ≤ out.length := by omega
      have e3 : min (i * 32) out.length - (i - 1) * 32 ≤ 32 := by omega
      evaluate [T.mul_ok h1, T.mul_ok h2, hl, show T.sub i 1 = _ from Small.sub T hi.1]
      generalize min (i * 32) out.length = e at *
      evaluate [Small.sub, copyFromSlice, slice, e1, e2, e3, show e ≤ 32 + (i - 1) * 32 by omega, hl, Nat.min_eq_left]
    · intro j _ s k
      exact iter_round T F d _ _ _ _ _ _ _
  · intro i hi n o o' hl hs
    refine ⟨?_, (blockStep_length T _ _ _ _ _ _ hs).trans hl⟩
    simp [src] at hi
    have h1 : i * 32 < 2 ^ T.bits := by omega
    have h2 : (i - 1) * 32 < 2 ^ T.bits := by omega
    unfold blockStep at hs
    obtain ⟨m0, e0, hs⟩ := Counted.bind_ok hs
    obtain ⟨m1, e1, hs⟩ := Counted.bind_ok hs
    obtain ⟨m2, e2, hs⟩ := Counted.bind_ok hs
    obtain ⟨r, e3, hs⟩ := Counted.bind_ok hs
    obtain ⟨t, e4, hs⟩ := Counted.bind_ok hs
    have a0 := (Counted.costs_hmacNew T password).2 m0 e0
    have a1 := (Counted.costs_hmacUpdate T m0 0 a0 salt).2 m1 e1
    have a2 := (Counted.costs_hmacUpdate T m1 _ a1 _).2 m2 e2
    rw [Nat.zero_add] at a1 a2
    have c0 := calls_HMac_new T F d _ _ e0
    have c1 := calls_HMac_update T F (d + 1) _ _ a0 _ _ e1
    have c2 := calls_HMac_update T F (d + 1) _ _ a1 _ _ e2
    have c3 := calls_HMac_digest T F (d + 1) _ _ a2 _ e3
    evaluate [ctxT_erase, T.mul_ok h1, T.mul_ok h2, Small.sub, hl, Small.ushr, e0, e1, e2, e3]
    rw [expr_free (h := by decide +kernel), calls_after _ _ fun _ _ => seq_free T F _ (by decide +kernel) (by decide +kernel)]
    erw [loop_calls (g := PB) Val.usize (fun s : Vector U8 32 × Vector U8 32 => [(.t, bytes s.2.toList), (.u, bytes s.1.toList),
      (.hmac, encHMac r.1), (.ctr, .seq [.u8 (BitVec.ofNat 8 (i >>> 24)), .u8 (BitVec.ofNat 8 (i >>> 16)),
        .u8 (BitVec.ofNat 8 (i >>> 8)), .u8 (BitVec.ofNat 8 i)]),
      (.i, .usize i), (.l, .usize ((out.length + 31) / 32)), (.password, bytes password),
      (.salt, bytes salt), (.c, .usize c), (.out, bytes o)])
      (iterStep T password) (fun _ => True) (fun n _ => n * Counted.macCost password 32) _ (fun _ => Nat.zero_mul _) ?_ ?_ (r.2, r.2) trivial t e4]
    · simp only [bytes, List.map_cons, List.map_nil] at c0 c1 c2 c3
      rw [c0, c1, c2, c3]
      unfold Counted.macCost
      simp only [List.length_cons, List.length_nil, List.length_range']
      rw [Nat.succ_mul, show c + 1 - 2 = c - 1 by omega]
      omega
    · intro j _ s _ k
      exact iter_round T F d _ _ _ _ _ _ _
    · intro j _ n s s' _ hs
      exact ⟨by rw [iter_calls T F d _ _ _ _ hs, Nat.succ_mul, Nat.add_comm], trivial⟩

end Verif.Source
