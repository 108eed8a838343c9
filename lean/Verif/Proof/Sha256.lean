import Verif.Model.Sha256
import Verif.Spec.Sha256
import Verif.Proof.Basics

/-! SHA-256: the compression function and the schedule of the model compute those of the specification. -/

namespace Verif.Sha256
open Verif

theorem rotr_eq (n : U32) (s : Nat) (h : s < 32) : rotr n s = n.rotateRight s := by
  rw [rotr, BitVec.rotateRight_def, Nat.mod_eq_of_lt h, BitVec.or_comm]

theorem bsig0_eq (x : U32) : bsig0 x = Spec.Sha256.bigSigma0 x := by
  simp only [bsig0, Spec.Sha256.bigSigma0, rotr_eq _ _ (show 2 < 32 by decide), rotr_eq _ _ (show 13 < 32 by decide),
    rotr_eq _ _ (show 22 < 32 by decide)]

theorem bsig1_eq (x : U32) : bsig1 x = Spec.Sha256.bigSigma1 x := by
  simp only [bsig1, Spec.Sha256.bigSigma1, rotr_eq _ _ (show 6 < 32 by decide), rotr_eq _ _ (show 11 < 32 by decide),
    rotr_eq _ _ (show 25 < 32 by decide)]

theorem ssig0_eq (x : U32) : ssig0 x = Spec.Sha256.smallSigma0 x := by
  simp only [ssig0, Spec.Sha256.smallSigma0, rotr_eq _ _ (show 7 < 32 by decide), rotr_eq _ _ (show 18 < 32 by decide)]

theorem ssig1_eq (x : U32) : ssig1 x = Spec.Sha256.smallSigma1 x := by
  simp only [ssig1, Spec.Sha256.smallSigma1, rotr_eq _ _ (show 17 < 32 by decide), rotr_eq _ _ (show 19 < 32 by decide)]

theorem be32_eq (b0 b1 b2 b3 : U8) :
    (b0.setWidth 32 <<< 24) ||| (b1.setWidth 32 <<< 16) ||| (b2.setWidth 32 <<< 8) ||| b3.setWidth 32
      = (b0 ++ b1 ++ b2 ++ b3 : BitVec 32) := by
  apply BitVec.eq_of_getLsbD_eq
  intro i hi
  simp only [BitVec.getLsbD_append, BitVec.getLsbD_or, BitVec.getLsbD_shiftLeft, BitVec.getLsbD_setWidth]
  by_cases h1 : i < 8
  · simp [h1, hi]; grind
  by_cases h2 : i < 16
  · simp [h1, h2, hi]; grind
  by_cases h3 : i < 24
  · simp [h1, h2, h3, hi]; grind
  · simp [h1, h2, h3, hi]; grind

theorem K_table : ∀ t : Fin 64, K[t] = Spec.Sha256.K t := by decide +kernel

theorem K_eq (t : Nat) (h : t < 64) : K[t] = Spec.Sha256.K t := K_table ⟨t, h⟩

theorem H_eq : H = Spec.Sha256.initial := by decide +kernel

theorem byteAt_eq {n : Nat} (v : Vector U8 n) (i : Nat) (h : i < n) : Spec.byteAt v.toList i = v[i] := by
  simp [Spec.byteAt, h]

theorem fill_block_eq (input : Vector U8 64) (out : Vector U32 16) :
    fill_block input out = .ok (Vector.ofFn fun t : Fin 16 => Spec.be32At input.toList (4 * t)) := by
  obtain ⟨s', hs', hP⟩ := forRange_inv 0 16 (by decide) out
    (fun i output => do
      let i0 := (← vidx input (i * 4)).setWidth 32
      let i1 := (← vidx input (i * 4 + 1)).setWidth 32
      let i2 := (← vidx input (i * 4 + 2)).setWidth 32
      let i3 := (← vidx input (i * 4 + 3)).setWidth 32
      vupd output i ((i0 <<< 24) ||| (i1 <<< 16) ||| (i2 <<< 8) ||| i3))
    (fun i o => ∀ j (_ : j < i) (_ : j < 16), o[j] = Spec.be32At input.toList (4 * j))
    (by intro j h; omega)
    (by
      intro i s _ hi ih
      refine ⟨s.set i (Spec.be32At input.toList (4 * i)), ?_, ?_⟩
      · rw [vidx_ok _ _ (by omega), vidx_ok _ _ (by omega), vidx_ok _ _ (by omega), vidx_ok _ _ (by omega)]
        simp only [ok_bind]
        rw [vupd_ok _ _ _ hi, be32_eq]
        simp only [Spec.be32At, byteAt_eq input _ (show 4 * i < 64 by omega),
          byteAt_eq input _ (show 4 * i + 1 < 64 by omega), byteAt_eq input _ (show 4 * i + 2 < 64 by omega),
          byteAt_eq input _ (show 4 * i + 3 < 64 by omega), Nat.mul_comm i 4]
      · intro j hj hj'
        rw [Vector.getElem_set]
        split
        · subst_vars; rfl
        · exact ih j (by omega) hj')
  rw [fill_block, hs']
  congr 1
  ext j hj
  rw [hP j hj hj]
  simp

theorem W_lt (m : Nat → U32) (t : Nat) (h : t < 16) : Spec.Sha256.W m t = m t := by
  rw [Spec.Sha256.W, if_pos h]

theorem W_ge (m : Nat → U32) (t : Nat) (h : ¬ t < 16) : Spec.Sha256.W m t =
    Spec.Sha256.smallSigma1 (Spec.Sha256.W m (t - 2)) + Spec.Sha256.W m (t - 7)
      + Spec.Sha256.smallSigma0 (Spec.Sha256.W m (t - 15)) + Spec.Sha256.W m (t - 16) := by
  rw [Spec.Sha256.W, if_neg h]

/-- The body of the schedule loop. -/
def scheduleStep (t : Nat) (w : Vector U32 64) : M (Vector U32 64) := do
  let w2 ← vidx w (t - 2)
  let w7 ← vidx w (t - 7)
  let w15 ← vidx w (t - 15)
  let w16 ← vidx w (t - 16)
  vupd w t (wrapping_sum (ssig1 w2) [w7, ssig0 w15, w16])

theorem scheduleStep_ok (m : Nat → U32) (t : Nat) (w : Vector U32 64) (h16 : 16 ≤ t) (ht : t < 64)
    (ih : ∀ j (_ : j < t) (_ : j < 64), w[j] = Spec.Sha256.W m j) :
    scheduleStep t w = .ok (w.set t (Spec.Sha256.W m t) ht) := by
  rw [scheduleStep, vidx_ok _ _ (by omega), vidx_ok _ _ (by omega), vidx_ok _ _ (by omega), vidx_ok _ _ (by omega)]
  simp only [ok_bind]
  rw [vupd_ok _ _ _ ht, W_ge _ _ (by omega)]
  rw [ih (t - 2) (by omega) (by omega), ih (t - 7) (by omega) (by omega), ih (t - 15) (by omega) (by omega),
    ih (t - 16) (by omega) (by omega)]
  simp only [wrapping_sum, List.foldl, ssig0_eq, ssig1_eq]

theorem schedule_eq (block : Vector U32 16) (m : Nat → U32) (hm : ∀ j (h : j < 16), block[j] = m j) :
    ∃ w, SHA256.schedule block = .ok w ∧ ∀ t (h : t < 64), w[t] = Spec.Sha256.W m t := by
  obtain ⟨w, hw, hP⟩ := forRange_inv 16 64 (by decide)
    (block ++ Vector.replicate 48 (0 : U32) : Vector U32 (16 + 48)) scheduleStep
    (fun i o => ∀ j (_ : j < i) (_ : j < 64), o[j] = Spec.Sha256.W m j)
    (by
      intro j h h'
      rw [W_lt _ _ h, Vector.getElem_append_left h, hm j h])
    (by
      intro t w h16 ht ih
      refine ⟨_, scheduleStep_ok m t w h16 ht ih, ?_⟩
      intro j hj hj'
      rw [Vector.getElem_set]
      split
      · subst_vars; rfl
      · exact ih j (by omega) hj')
  exact ⟨w, hw, fun t ht => hP t ht ht⟩

def Regs.toState (r : Regs) : Spec.Sha256.State := #v[r.a, r.b, r.c, r.d, r.e, r.f, r.g, r.h]

theorem rounds_eq (w : Vector U32 64) (m : Nat → U32) (hw : ∀ t (h : t < 64), w[t] = Spec.Sha256.W m t) (r : Regs) :
    ∃ r', SHA256.rounds w r = .ok r' ∧ r'.toState = Spec.Sha256.rounds m r.toState 64 := by
  unfold SHA256.rounds
  refine forRange_inv 0 64 (by decide) r _ (fun t r' => r'.toState = Spec.Sha256.rounds m r.toState t) rfl ?_
  intro t r' _ ht ih
  rw [vidx_ok _ _ ht, vidx_ok _ _ ht, K_eq t ht, hw t ht]
  simp only [ok_bind, pure_eq_ok]
  refine ⟨_, rfl, ?_⟩
  rw [Spec.Sha256.rounds, ← ih]
  simp only [wrapping_sum, List.foldl_cons, List.foldl_nil, bsig0_eq, bsig1_eq, ch, maj]
  rfl

theorem W_congr (m m' : Nat → U32) (h : ∀ j, j < 16 → m j = m' j) (t : Nat) :
    Spec.Sha256.W m t = Spec.Sha256.W m' t := by
  induction t using Nat.strongRecOn with
  | _ t ih =>
    by_cases ht : t < 16
    · rw [W_lt _ _ ht, W_lt _ _ ht, h t ht]
    · rw [W_ge _ _ ht, W_ge _ _ ht, ih (t - 2) (by omega), ih (t - 7) (by omega), ih (t - 15) (by omega), ih (t - 16) (by omega)]

theorem rounds_congr (m m' : Nat → U32) (h : ∀ j, j < 16 → m j = m' j) (s : Spec.Sha256.State) (t : Nat) :
    Spec.Sha256.rounds m s t = Spec.Sha256.rounds m' s t := by
  induction t with
  | zero => rfl
  | succ t ih => rw [Spec.Sha256.rounds, Spec.Sha256.rounds, ih, W_congr m m' h]

theorem compress_congr (m m' : Nat → U32) (h : ∀ j, j < 16 → m j = m' j) (s : Spec.Sha256.State) :
    Spec.Sha256.compress s m = Spec.Sha256.compress s m' := by
  rw [Spec.Sha256.compress, Spec.Sha256.compress, rounds_congr m m' h]

theorem process_block_eq (self : SHA256) (block : Vector U32 16) (m : Nat → U32)
    (hm : ∀ j (h : j < 16), block[j] = m j) :
    self.process_block block = .ok { self with h := Spec.Sha256.compress self.h m } := by
  obtain ⟨w, hw, hW⟩ := schedule_eq block m hm
  rw [SHA256.process_block, hw]
  simp only [ok_bind]
  obtain ⟨r', hr', hs⟩ := rounds_eq w m hW
    { a := self.h[0], b := self.h[1], c := self.h[2], d := self.h[3]
      e := self.h[4], f := self.h[5], g := self.h[6], h := self.h[7] }
  rw [hr']
  simp only [ok_bind, pure_eq_ok]
  congr 2
  rw [Spec.Sha256.compress]
  have h8 : Regs.toState
      { a := self.h[0], b := self.h[1], c := self.h[2], d := self.h[3]
        e := self.h[4], f := self.h[5], g := self.h[6], h := self.h[7] } = self.h := by
    ext i hi
    rcases i with _ | _ | _ | _ | _ | _ | _ | _ | i <;> first | rfl | omega
  rw [h8] at hs
  rw [← hs]
  ext i hi
  rcases i with _ | _ | _ | _ | _ | _ | _ | _ | i <;>
    first | omega | simp [wrapping_sum, Regs.toState]

/-- `fill_block` followed by `process_block` compresses the block in the buffer. -/
theorem fill_process_eq (self : SHA256) (buffer : Vector U8 64) (block : Vector U32 16) :
    ∃ block', fill_block buffer block = .ok block' ∧
      self.process_block block' =
        .ok { self with h := Spec.Sha256.compress self.h (Spec.Sha256.blockWord buffer.toList 0) } := by
  refine ⟨_, fill_block_eq _ _, ?_⟩
  apply process_block_eq
  intro j hj
  simp [Spec.Sha256.blockWord]

end Verif.Sha256
