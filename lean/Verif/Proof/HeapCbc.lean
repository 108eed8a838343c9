import Verif.Proof.Heap
import Verif.Props.HeapRun

/-! The heap model of PKCS7 and CBC: without the heap it is the model of `Model/Growing.lean`, and how each function changes the heap. -/

namespace Verif.Heap
open Verif Verif.Aes Verif.Pkcs7 Verif.AesCbc Verif.Growing Spec.Cbc

/-! ### Without the heap -/

theorem withCapacity_erases (T : Target) (n : Nat) : Erases (VecU8.withCapacity T n) (Growing.VecU8.withCapacity T n) :=
  (Erases.lift _).end fun _ => Erases.take (Erases.pure _)

theorem ofSlice_erases (T : Target) (xs : List U8) : Erases (VecU8.ofSlice T xs) (Growing.VecU8.ofSlice T xs) :=
  (Erases.lift _).end fun _ => Erases.take (Erases.pure _)

theorem reserve_erases (T : Target) (G : Policy) (v : VecU8) (n : Nat) : Erases (VecU8.reserve T G v n) (Growing.VecU8.reserve T G v n) := by
  refine (Erases.lift _).end fun v' => ?_
  split
  · exact Erases.take (Erases.give (Erases.pure _))
  · exact Erases.pure _

theorem push_erases (T : Target) (G : Policy) (v : VecU8) (x : U8) : Erases (VecU8.push T G v x) (Growing.VecU8.push T G v x) :=
  (reserve_erases T G v 1).bind fun _ => Erases.pure _

theorem append_erases (T : Target) (G : Policy) (v w : VecU8) : Erases (VecU8.append T G v w) (Growing.VecU8.append T G v w) :=
  (reserve_erases T G v _).bind fun _ => Erases.pure _

theorem splitOff_erases (T : Target) (v : VecU8) (n : Nat) : Erases (VecU8.splitOff T v n) (Growing.VecU8.splitOff T v n) :=
  (Erases.lift _).end fun _ => Erases.take (Erases.pure _)

theorem pad_new_erases (T : Target) (n : Nat) : Erases (Pad.new T n) (Growing.Pad.new T n) :=
  (withCapacity_erases T _).bind fun _ => Erases.pure _

theorem unpad_new_erases (T : Target) (n : Nat) : Erases (Unpad.new T n) (Growing.Unpad.new T n) :=
  (withCapacity_erases T _).bind fun _ => Erases.pure _

theorem pad_write_erases (T : Target) (G : Policy) (p : Growing.Pad) (b : List U8) : Erases (Pad.write T G p b) (p.write T G b) := by
  refine (Erases.forEach _ _ fun x v => push_erases T G v x).bind fun v => .ite _ (.pure _) ?_
  refine (Erases.lift _).bind fun _ => (Erases.lift _).bind fun _ => (splitOff_erases T v _).bind ?_
  rintro ⟨v, tail⟩
  exact (ofSlice_erases T _).bind fun head => (append_erases T G _ tail).bind fun v => Erases.give (Erases.pure _)

theorem pad_flush_erases (T : Target) (G : Policy) (p : Growing.Pad) : Erases (Pad.flush T G p) (p.flush T G) :=
  (Erases.lift _).bind fun _ => (Erases.forEach _ _ fun x v => push_erases T G v x).bind fun _ => (ofSlice_erases T _).bind fun _ => Erases.pure _

theorem unpad_write_erases (T : Target) (G : Policy) (p : Growing.Unpad) (b : List U8) : Erases (Unpad.write T G p b) (p.write T G b) := by
  refine (Erases.forEach _ _ fun x v => push_erases T G v x).bind fun v => .ite _ (.pure _) ?_
  refine (Erases.lift _).bind fun _ => (Erases.lift _).bind fun _ => (splitOff_erases T v _).bind ?_
  rintro ⟨v, tail⟩
  exact (ofSlice_erases T _).bind fun head => (append_erases T G _ tail).bind fun v => Erases.give (Erases.pure _)

theorem unpad_flush_erases (T : Target) (p : Growing.Unpad) : Erases (Unpad.flush T p) (p.flush T) := by
  refine (Erases.lift _).end ?_
  rintro ⟨p, _ | r⟩
  · exact Erases.pure _
  · exact Erases.take (Erases.pure _)

theorem initAes_erases (T : Target) (a : AES) (key : List U8) : Erases (initAes T a key) (a.init T key) := by
  refine (Erases.lift _).end ?_
  rintro ⟨p, _ | r⟩
  · exact Erases.pure _
  · exact Erases.take (Erases.give (Erases.pure _))

theorem cipher_new_erases (T : Target) (iv : Vector U8 16) : Erases (Cipher.new T iv) (Growing.Cipher.new T iv) :=
  (pad_new_erases T _).bind fun _ => Erases.pure _

theorem cipher_init_erases (T : Target) (c : Growing.Cipher) (key : List U8) : Erases (Cipher.init T c key) (c.init T key) :=
  (initAes_erases T _ _).bind fun _ => Erases.pure _

theorem encrypt_block_erases (T : Target) (c : Growing.Cipher) (b : List U8) : Erases (Cipher.encrypt_block T c b) (c.encrypt_block T b) := by
  refine (Erases.lift _).end ?_
  rintro ⟨p, _ | r⟩
  · exact Erases.pure _
  · exact Erases.take (Erases.pure _)

theorem cipher_loop_erases (T : Target) (G : Policy) (bs : List (List U8)) (c : Growing.Cipher) (w : VecU8) :
    Erases (Cipher.writeLoop T G bs c w) (Growing.Cipher.writeLoop T G bs c w) := by
  induction bs generalizing c w with
  | nil => exact Erases.pure _
  | cons b bs ih =>
    rw [Cipher.writeLoop, Growing.Cipher.writeLoop]
    refine (encrypt_block_erases T c b).bind ?_
    rintro ⟨c, _ | r⟩
    · exact Erases.give (Erases.pure _)
    · exact (append_erases T G w r).bind fun w => Erases.give (ih c w)

theorem cipher_write_erases (T : Target) (G : Policy) (c : Growing.Cipher) (b : List U8) : Erases (Cipher.write T G c b) (c.write T G b) := by
  refine (pad_write_erases T G c.pad b).bind ?_
  rintro ⟨p, _ | blocks⟩
  · exact Erases.pure _
  · refine (withCapacity_erases T _).bind fun w => (Erases.lift _).bind fun bs => ?_
    exact (cipher_loop_erases T G bs _ w).end fun _ => Erases.give (Erases.pure _)

theorem cipher_flush_erases (T : Target) (G : Policy) (c : Growing.Cipher) : Erases (Cipher.flush T G c) (c.flush T G) :=
  (pad_flush_erases T G c.pad).bind fun _ => (encrypt_block_erases T _ _).end fun _ => Erases.give (Erases.pure _)

theorem decipher_new_erases (T : Target) (iv : Vector U8 16) : Erases (Decipher.new T iv) (Growing.Decipher.new T iv) :=
  (unpad_new_erases T _).bind fun _ => (pad_new_erases T _).bind fun _ => Erases.pure _

theorem decipher_init_erases (T : Target) (d : Growing.Decipher) (key : List U8) : Erases (Decipher.init T d key) (d.init T key) :=
  (initAes_erases T _ _).bind fun _ => Erases.pure _

theorem decipher_loop_erases (T : Target) (G : Policy) (bs : List (List U8)) (d : Growing.Decipher) (w : VecU8) :
    Erases (Decipher.writeLoop T G bs d w) (Growing.Decipher.writeLoop T G bs d w) := by
  induction bs generalizing d w with
  | nil => exact Erases.pure _
  | cons b bs ih =>
    rw [Decipher.writeLoop, Growing.Decipher.writeLoop]
    refine (Erases.lift _).bind fun block => (Erases.lift _).bind ?_
    rintro (_ | r)
    · exact Erases.give (Erases.pure _)
    · exact (ofSlice_erases T _).bind fun t => (append_erases T G w t).bind fun w => Erases.give (ih _ w)

theorem decipher_write_erases (T : Target) (G : Policy) (d : Growing.Decipher) (b : List U8) : Erases (Decipher.write T G d b) (d.write T G b) := by
  refine (pad_write_erases T G d.buffer b).bind ?_
  rintro ⟨p, _ | blocks⟩
  · exact Erases.pure _
  · refine (withCapacity_erases T _).bind fun w => (Erases.lift _).bind fun bs => (decipher_loop_erases T G bs _ w).bind ?_
    rintro ⟨d, _ | r⟩
    · exact Erases.give (Erases.pure _)
    · exact (unpad_write_erases T G _ _).bind fun _ => Erases.give (Erases.give (Erases.pure _))

theorem decipher_flush_erases (T : Target) (d : Growing.Decipher) : Erases (Decipher.flush T d) (d.flush T) := by
  refine (unpad_flush_erases T d.unpad).bind ?_
  rintro ⟨p, _ | r⟩
  · exact Erases.pure _
  · exact Erases.pure _

theorem read_erases {σ ε : Type} {f : H (σ × Except ε VecU8)} {m : M (σ × Except ε VecU8)} (h : Erases f m) :
    Erases (f >>= read) (m >>= fun (s, r) => return (s, r.map (·.data))) := by
  refine h.bind ?_
  rintro ⟨s, _ | r⟩
  · exact Erases.pure _
  · exact Erases.give (Erases.pure _)

theorem cstep_erases (T : Target) (G : Policy) (c : Growing.Cipher) (x : Call) : Erases (cstep T G c x) (Growing.cstep T G c x) := by
  cases x with
  | init key => exact (cipher_init_erases T c key).bind fun _ => Erases.pure _
  | write b => exact read_erases (cipher_write_erases T G c b)
  | flush => exact read_erases (cipher_flush_erases T G c)

theorem dstep_erases (T : Target) (G : Policy) (d : Growing.Decipher) (x : Call) : Erases (dstep T G d x) (Growing.dstep T G d x) := by
  cases x with
  | init key => exact (decipher_init_erases T d key).bind fun _ => Erases.pure _
  | write b => exact read_erases (decipher_write_erases T G d b)
  | flush => exact read_erases (decipher_flush_erases T d)

theorem crun_erases (T : Target) (G : Policy) (calls : List Call) (c : Growing.Cipher) : Erases (crun T G c calls) (Growing.crun T G c calls) := by
  induction calls generalizing c with
  | nil => exact Erases.pure _
  | cons x xs ih => exact (cstep_erases T G c x).bind fun p => (ih p.1).bind fun _ => Erases.pure _

theorem drun_erases (T : Target) (G : Policy) (calls : List Call) (d : Growing.Decipher) : Erases (drun T G d calls) (Growing.drun T G d calls) := by
  induction calls generalizing d with
  | nil => exact Erases.pure _
  | cons x xs ih => exact (dstep_erases T G d x).bind fun p => (ih p.1).bind fun _ => Erases.pure _

theorem csession_erases (T : Target) (G : Policy) (iv : Vector U8 16) (calls : List Call) :
    Erases (csession T G iv calls) (Growing.csession T G iv calls) :=
  (cipher_new_erases T iv).bind fun c => crun_erases T G calls c

theorem dsession_erases (T : Target) (G : Policy) (iv : Vector U8 16) (calls : List Call) :
    Erases (dsession T G iv calls) (Growing.dsession T G iv calls) :=
  (decipher_new_erases T iv).bind fun c => drun_erases T G calls c

/-! ### Vectors -/

theorem reserve_room (T : Target) (G : Policy) (v : VecU8) (n : Nat) (h : v.data.length + n ≤ v.cap) {β : Type} {R : β → Heap → Prop} {g : VecU8 → H β}
    {L P : Int} (hg : Post (g v ⟨L, P⟩) R) : Post ((VecU8.reserve T G v n >>= g) ⟨L, P⟩) R := by
  refine Post.bind (Q := fun v' h' => v' = v ∧ h' = ⟨L, P⟩) ?_ ?_
  · refine Post.lift fun v' hv' => ?_
    rw [Growing.VecU8.reserve, if_pos h] at hv'
    cases hv'
    rw [if_neg (by simp)]
    exact Post.pure ⟨rfl, rfl⟩
  · rintro v' h' ⟨rfl, rfl⟩
    exact hg

theorem append_room (T : Target) (G : Policy) (v w : VecU8) (h : v.data.length + w.data.length ≤ v.cap) {β : Type} {R : β → Heap → Prop} {g : VecU8 → H β}
    {L P : Int} (hg : Post (g ⟨v.data ++ w.data, v.cap⟩ ⟨L, P⟩) R) : Post ((VecU8.append T G v w >>= g) ⟨L, P⟩) R := by
  refine Post.bind (Q := fun v' h' => v' = ⟨v.data ++ w.data, v.cap⟩ ∧ h' = ⟨L, P⟩) ?_ ?_
  · exact reserve_room T G v _ h (Post.pure ⟨rfl, rfl⟩)
  · rintro v' h' ⟨rfl, rfl⟩
    exact hg

theorem ofSlice_heap (T : Target) (xs : List U8) {β : Type} {R : β → Heap → Prop} {g : VecU8 → H β} {L P : Int}
    (hg : Post (g ⟨xs, xs.length⟩ ⟨L + xs.length, max P (L + xs.length)⟩) R) : Post ((VecU8.ofSlice T xs >>= g) ⟨L, P⟩) R := by
  refine Post.bind (Q := fun v' h' => v' = ⟨xs, xs.length⟩ ∧ h' = ⟨L + xs.length, max P (L + xs.length)⟩) ?_ ?_
  · refine Post.lift fun v' hv' => ?_
    rw [Growing.VecU8.ofSlice] at hv'
    cases e : T.reserve 1 xs.length with
    | error _ => rw [e] at hv'; cases hv'
    | ok _ => rw [e] at hv'; cases hv'; exact Post.take (Post.pure ⟨rfl, rfl⟩)
  · rintro v' h' ⟨rfl, rfl⟩
    exact hg

theorem withCapacity_heap (T : Target) (n : Nat) {β : Type} {R : β → Heap → Prop} {g : VecU8 → H β} {L P : Int}
    (hg : Post (g ⟨[], n⟩ ⟨L + n, max P (L + n)⟩) R) : Post ((VecU8.withCapacity T n >>= g) ⟨L, P⟩) R := by
  refine Post.bind (Q := fun v' h' => v' = ⟨[], n⟩ ∧ h' = ⟨L + n, max P (L + n)⟩) ?_ ?_
  · refine Post.lift fun v' hv' => ?_
    rw [Growing.VecU8.withCapacity] at hv'
    cases e : T.reserve 1 n with
    | error _ => rw [e] at hv'; cases hv'
    | ok _ => rw [e] at hv'; cases hv'; exact Post.take (Post.pure ⟨rfl, rfl⟩)
  · rintro v' h' ⟨rfl, rfl⟩
    exact hg

theorem splitOff_heap (T : Target) (v : VecU8) (n : Nat) {β : Type} {R : β → Heap → Prop} {g : VecU8 × VecU8 → H β} {L P : Int}
    (hg : n ≤ v.data.length → Post (g (⟨v.data.take n, v.cap⟩, ⟨v.data.drop n, v.data.length - n⟩)
      ⟨L + (v.data.length - n : Nat), max P (L + (v.data.length - n : Nat))⟩) R) :
    Post ((VecU8.splitOff T v n >>= g) ⟨L, P⟩) R := by
  refine Post.bind (Q := fun v' h' => n ≤ v.data.length ∧ v' = (⟨v.data.take n, v.cap⟩, ⟨v.data.drop n, v.data.length - n⟩) ∧
    h' = ⟨L + (v.data.length - n : Nat), max P (L + (v.data.length - n : Nat))⟩) ?_ ?_
  · refine Post.lift fun v' hv' => ?_
    rw [Growing.VecU8.splitOff] at hv'
    split at hv'
    · rename_i hn
      rw [Growing.VecU8.ofSlice] at hv'
      cases e : T.reserve 1 (v.data.drop n).length with
      | error _ => rw [e] at hv'; cases hv'
      | ok _ =>
        rw [e] at hv'
        cases hv'
        refine Post.take (Post.pure ⟨hn, ?_, ?_⟩)
        · simp
        · simp
    · cases hv'
  · rintro v' h' ⟨hn, rfl, rfl⟩
    exact hg hn

theorem pushAll_heap (T : Target) (G : Policy) (b : List U8) (v : VecU8) (h1 : v.data.length ≤ v.cap) (h2 : 32 ≤ v.cap) (L P : Int) :
    Post (forEach b v (fun elem storage => VecU8.push T G storage elem) ⟨L, P⟩) fun w h => w.data = v.data ++ b ∧ w.data.length ≤ w.cap ∧
      v.cap ≤ w.cap ∧ w.cap ≤ max v.cap (2 * (v.data.length + b.length)) ∧ h.live = L - v.cap + w.cap ∧
      h.peak ≤ max P (L - v.cap + 3 * (v.data.length + b.length : Nat)) := by
  induction b generalizing v L P with
  | nil => exact Post.pure ⟨by simp, h1, Nat.le_refl _, Nat.le_max_left _ _, by show L = _; omega, by show P ≤ _; omega⟩
  | cons x b ih =>
    refine Post.bind (f := VecU8.push T G v x) (Q := fun w h => w.data = v.data ++ [x] ∧ w.data.length ≤ w.cap ∧ v.cap ≤ w.cap ∧
      (w.cap = v.cap ∨ w.cap ≤ 2 * v.cap ∧ v.data.length = v.cap) ∧ h.live = L - v.cap + w.cap ∧
      h.peak ≤ max P (L - v.cap + 3 * (v.data.length + 1 : Nat))) ?_ ?_
    · by_cases hf : v.data.length + 1 ≤ v.cap
      · exact reserve_room T G v 1 hf (Post.pure ⟨rfl, by simp; omega, Nat.le_refl _, .inl rfl, by show L = _ + (v.cap : Int); omega, by show P ≤ _; omega⟩)
      · refine Post.bind (f := VecU8.reserve T G v 1) (Q := fun w h => w.data = v.data ∧ v.cap < w.cap ∧ w.cap ≤ 2 * v.cap ∧ h.live = L - v.cap + w.cap ∧
          h.peak = max P (L + w.cap)) ?_ ?_
        · refine Post.lift fun v' hv' => ?_
          rw [Growing.VecU8.reserve, if_neg hf] at hv'
          have g1 := G.enough v.cap (v.data.length + 1)
          have g2 := G.atMost v.cap (v.data.length + 1)
          generalize G.grow v.cap (v.data.length + 1) = c at hv' g1 g2
          have hv : v' = ⟨v.data, c⟩ := by
            cases e : T.reserve 1 c with
            | error _ => rw [e] at hv'; cases hv'
            | ok _ => rw [e] at hv'; cases hv'; rfl
          subst hv
          rw [if_pos (show c ≠ v.cap by omega)]
          exact Post.take <| Post.give <| Post.pure ⟨rfl, by show v.cap < c; omega, by show c ≤ _; omega, by show L + c - v.cap = L - v.cap + c; omega, rfl⟩
        · rintro w ⟨L', P'⟩ ⟨i1, i2, i3, i4, i5⟩
          change L' = _ at i4
          change P' = _ at i5
          refine Post.pure ⟨by rw [i1], ?_, ?_, .inr ⟨i3, by omega⟩, i4, ?_⟩
          · show (w.data ++ [x]).length ≤ w.cap
            rw [i1, List.length_append, List.length_singleton]; omega
          · show v.cap ≤ w.cap; omega
          · show P' ≤ _; omega
    · rintro w ⟨L', P'⟩ ⟨i1, i2, i3, i4, i5, i6⟩
      change L' = _ at i5
      change P' ≤ _ at i6
      refine Post.mono (ih w i2 (by omega) L' P') ?_
      rintro w' L2 P2 ⟨j1, j2, j3, j4, j5, j6⟩
      change L2 = _ at j5
      change P2 ≤ _ at j6
      have hl : w.data.length = v.data.length + 1 := by rw [i1]; simp
      rw [List.length_cons]
      refine ⟨by rw [j1, i1]; simp, j2, by omega, by omega, by show L2 = _; omega, ?_⟩
      show P2 ≤ _
      omega

/-! ### PKCS7 -/

/-- A vector that gathers fewer than `k` octets, and has room for more. -/
def Small (k : Nat) (v : VecU8) : Prop := v.data.length < k ∧ 32 ≤ v.cap

/-- The memory of a result. -/
def okCap {ε : Type} : Except ε VecU8 → Nat
  | .ok v => v.cap
  | .error _ => 0

/-- The memory of an optional vector. -/
def optCap : Option VecU8 → Nat
  | some v => v.cap
  | none => 0

theorem pad_write_heap (T : Target) (G : Policy) (p : Growing.Pad) (b : List U8) (hb : p.block_size = 16) (hs : Small 16 p.storage) (L P : Int) (N : Nat)
    (hN : p.storage.data.length + b.length ≤ N) :
    Post (Pad.write T G p b ⟨L, P⟩) fun q h => q.1.block_size = 16 ∧ Small 16 q.1.storage ∧ q.1.storage.cap ≤ max p.storage.cap (2 * N) ∧
      (∀ head, q.2 = some head → head.data.length ≤ N ∧ head.cap = head.data.length ∧ head.data.length % 16 = 0) ∧
      h.live = L - p.storage.cap + q.1.storage.cap + optCap q.2 ∧
      h.peak ≤ max P (L - p.storage.cap + max p.storage.cap (2 * N) + N + 15) := by
  unfold Pad.write
  have h1 := hs.1
  have h2 := hs.2
  refine Post.bind (pushAll_heap T G b p.storage (by omega) h2 L P) ?_
  rintro w ⟨L', P'⟩ ⟨i1, i2, i3, i4, i5, i6⟩
  change L' = _ at i5
  change P' ≤ _ at i6
  have hl : w.data.length = p.storage.data.length + b.length := by rw [i1]; simp
  split
  · rename_i hlt
    rw [hb] at hlt
    refine Post.pure ⟨hb, ⟨hlt, by show 32 ≤ w.cap; omega⟩, by show w.cap ≤ _; omega, (by intro head hh; cases hh), ?_, ?_⟩
    · show L' = L - p.storage.cap + w.cap + 0
      omega
    · show P' ≤ _
      omega
  · rename_i hge
    refine Post.lift fun tl htl => Post.lift fun tp htp => ?_
    rw [hb, T.rem_ok (by decide)] at htl
    cases htl
    rw [T.sub_ok (Nat.mod_le _ _)] at htp
    cases htp
    refine splitOff_heap T w _ fun hn => ?_
    refine ofSlice_heap T _ ?_
    have hm : w.data.length - (w.data.length - w.data.length % 16) = w.data.length % 16 := by omega
    simp only [hm]
    have h16 : w.data.length % 16 < 16 := Nat.mod_lt _ (by decide)
    refine append_room T G _ _ (by
      show 0 + (w.data.drop (w.data.length - w.data.length % 16)).length ≤ w.cap
      rw [List.length_drop]; omega) ?_
    have ht : (w.data.take (w.data.length - w.data.length % 16)).length = w.data.length - w.data.length % 16 := by
      rw [List.length_take]; omega
    refine Post.give <| Post.pure ⟨hb, ⟨?_, ?_⟩, ?_, ?_, ?_, ?_⟩
    · show ([] ++ w.data.drop (w.data.length - w.data.length % 16)).length < 16
      rw [List.nil_append, List.length_drop]; omega
    · show 32 ≤ w.cap; omega
    · show w.cap ≤ _; omega
    · intro head hh
      cases hh
      show (w.data.take (w.data.length - w.data.length % 16)).length ≤ N ∧ _ = _ ∧ (w.data.take (w.data.length - w.data.length % 16)).length % 16 = 0
      rw [ht]
      exact ⟨by omega, rfl, by omega⟩
    · show L' + _ + ((w.data.take (w.data.length - w.data.length % 16)).length : Int) - _ = L - p.storage.cap + w.cap +
        ((w.data.take (w.data.length - w.data.length % 16)).length : Int)
      omega
    · show max (max P' _) (_ + ((w.data.take (w.data.length - w.data.length % 16)).length : Int)) ≤ _
      rw [ht]
      omega

theorem unpad_write_heap (T : Target) (G : Policy) (p : Growing.Unpad) (b : List U8) (hb : p.block_size = 16) (hs : Small 17 p.storage) (L P : Int) (N : Nat)
    (hN : p.storage.data.length + b.length ≤ N) :
    Post (Unpad.write T G p b ⟨L, P⟩) fun q h => q.1.block_size = 16 ∧ Small 17 q.1.storage ∧ q.1.storage.cap ≤ max p.storage.cap (2 * N) ∧
      (∀ head, q.2 = some head → head.data.length ≤ N ∧ head.cap = head.data.length) ∧
      h.live = L - p.storage.cap + q.1.storage.cap + optCap q.2 ∧
      h.peak ≤ max P (L - p.storage.cap + max p.storage.cap (2 * N) + N + 16) := by
  unfold Unpad.write
  have h1 := hs.1
  have h2 := hs.2
  refine Post.bind (pushAll_heap T G b p.storage (by omega) h2 L P) ?_
  rintro w ⟨L', P'⟩ ⟨i1, i2, i3, i4, i5, i6⟩
  change L' = _ at i5
  change P' ≤ _ at i6
  have hl : w.data.length = p.storage.data.length + b.length := by rw [i1]; simp
  split
  · rename_i hlt
    rw [hb] at hlt
    refine Post.pure ⟨hb, ⟨by show w.data.length < 17; omega, by show 32 ≤ w.cap; omega⟩, by show w.cap ≤ _; omega, (by intro head hh; cases hh), ?_, ?_⟩
    · show L' = L - p.storage.cap + w.cap + 0
      omega
    · show P' ≤ _
      omega
  · rename_i hge
    rw [hb] at hge
    refine Post.lift fun tl htl => ?_
    rw [hb, T.rem_ok (by decide)] at htl
    cases htl
    rw [hb]
    generalize ht0 : (if w.data.length % 16 = 0 then 16 else w.data.length % 16) = t
    have ht1 : t ≤ 16 ∧ t ≤ w.data.length := by
      rw [← ht0]; split <;> omega
    refine Post.lift fun tp htp => ?_
    rw [T.sub_ok ht1.2] at htp
    cases htp
    refine splitOff_heap T w _ fun hn => ?_
    refine ofSlice_heap T _ ?_
    have hm : w.data.length - (w.data.length - t) = t := by omega
    simp only [hm]
    refine append_room T G _ _ (by
      show 0 + (w.data.drop (w.data.length - t)).length ≤ w.cap
      rw [List.length_drop]; omega) ?_
    have ht : (w.data.take (w.data.length - t)).length = w.data.length - t := by
      rw [List.length_take]; omega
    refine Post.give <| Post.pure ⟨rfl, ⟨?_, ?_⟩, ?_, ?_, ?_, ?_⟩
    · show ([] ++ w.data.drop (w.data.length - t)).length < 17
      rw [List.nil_append, List.length_drop]; omega
    · show 32 ≤ w.cap; omega
    · show w.cap ≤ _; omega
    · intro head hh
      cases hh
      show (w.data.take (w.data.length - t)).length ≤ N ∧ _ = _
      rw [ht]
      exact ⟨by omega, rfl⟩
    · show L' + _ + ((w.data.take (w.data.length - t)).length : Int) - _ = L - p.storage.cap + w.cap +
        ((w.data.take (w.data.length - t)).length : Int)
      omega
    · show max (max P' _) (_ + ((w.data.take (w.data.length - t)).length : Int)) ≤ _
      rw [ht]
      omega

theorem pad_flush_heap (T : Target) (G : Policy) (p : Growing.Pad) (hb : p.block_size = 16) (hs : Small 16 p.storage) (L P : Int) :
    Post (Pad.flush T G p ⟨L, P⟩) fun q h => q.1.block_size = 16 ∧ q.1.storage.data = [] ∧ q.1.storage.cap = p.storage.cap ∧
      q.2.cap = 16 ∧ h.live = L + 16 ∧ h.peak ≤ max P (L + 16) := by
  unfold Pad.flush
  have h1 := hs.1
  have h2 := hs.2
  refine Post.lift fun len _ => ?_
  rw [hb]
  have key := pushAll_heap T G (List.replicate (16 - p.storage.data.length) (BitVec.ofNat 8 len)) p.storage (by omega) h2 L P
  refine Post.bind key ?_
  rintro w ⟨L', P'⟩ ⟨i1, i2, i3, i4, i5, i6⟩
  change L' = _ at i5
  change P' ≤ _ at i6
  rw [List.length_replicate] at i4 i6
  have hl : w.data.length = 16 := by rw [i1]; simp; omega
  have hc : w.cap = p.storage.cap := by omega
  refine ofSlice_heap T _ (Post.pure ⟨rfl, rfl, hc, hl, ?_, ?_⟩)
  · show L' + (w.data.length : Int) = _
    omega
  · show max P' (L' + (w.data.length : Int)) ≤ _
    omega

theorem unpad_flush_heap (T : Target) (p : Growing.Unpad) (hb : p.block_size = 16) (hs : Small 17 p.storage) (L P : Int) :
    Post (Unpad.flush T p ⟨L, P⟩) fun q h => q.1.block_size = 16 ∧ Small 17 q.1.storage ∧ q.1.storage.cap = p.storage.cap ∧
      okCap q.2 ≤ 16 ∧ h.live = L + okCap q.2 ∧ h.peak ≤ max P (L + 16) := by
  unfold Unpad.flush
  refine Post.lift ?_
  rintro ⟨q, r⟩ hq
  have facts : q.block_size = 16 ∧ Small 17 q.storage ∧ q.storage.cap = p.storage.cap ∧ okCap r ≤ 16 := by
    unfold Growing.Unpad.flush at hq
    split at hq
    · cases hq
      exact ⟨hb, hs, rfl, Nat.zero_le _⟩
    · cases e1 : T.sub p.storage.data.length 1 with
      | error e => rw [e1] at hq; cases hq
      | ok i =>
      rw [e1, ok_bind] at hq
      cases e2 : idx p.storage.data i with
      | error e => rw [e2] at hq; cases hq
      | ok len =>
      rw [e2, ok_bind] at hq
      split at hq
      · cases hq
        exact ⟨hb, hs, rfl, Nat.zero_le _⟩
      · cases e3 : T.sub p.block_size len.toNat with
        | error e => rw [e3] at hq; cases hq
        | ok off =>
        rw [e3, ok_bind] at hq
        cases e4 : sliceFrom p.storage.data off with
        | error e => rw [e4] at hq; cases hq
        | ok t =>
        rw [e4, ok_bind] at hq
        dsimp only at hq
        split at hq
        · cases hq
          exact ⟨hb, hs, rfl, Nat.zero_le _⟩
        · cases e5 : slice p.storage.data 0 off with
          | error e => rw [e5] at hq; cases hq
          | ok t2 =>
          rw [e5, ok_bind, Growing.VecU8.ofSlice] at hq
          cases e6 : T.reserve 1 t2.length with
          | error e => rw [e6] at hq; cases hq
          | ok _ =>
          rw [e6] at hq
          cases hq
          refine ⟨hb, ⟨by show 0 < 17; decide, hs.2⟩, rfl, ?_⟩
          show t2.length ≤ 16
          have := hs.1
          unfold slice at e5
          split at e5
          · cases e5
            simp only [List.length_drop, List.length_take]
            omega
          · cases e5
  obtain ⟨f1, f2, f3, f4⟩ := facts
  cases r with
  | error e => exact Post.pure ⟨f1, f2, f3, f4, by show L = L + 0; omega, by show P ≤ _; omega⟩
  | ok v =>
    have f4' : v.cap ≤ 16 := f4
    exact Post.take (Post.pure ⟨f1, f2, f3, f4, rfl, by show max P (L + v.cap) ≤ _; omega⟩)

/-! ### The round keys -/

theorem initAes_heap (T : Target) (a : AES) (key : List U8) (ha : keyBytes a ≤ 240) (L P : Int) :
    Post (initAes T a key ⟨L, P⟩) fun q h => keyBytes q.1 ≤ 240 ∧ h.live = L - keyBytes a + keyBytes q.1 ∧ h.peak ≤ max P (L + 240) := by
  unfold initAes
  refine Post.lift ?_
  rintro ⟨a', r⟩ hr
  have go : ∀ n, n ≤ 14 → (do
      let keys ← expand_key T key n
      return ({ round_count := n, round_keys := some keys }, .ok ()) : M (AES × Except AESError Unit)) = .ok (a', r) →
      keyBytes a' ≤ 240 ∧ r = .ok () := by
    intro n hn e
    cases ek : expand_key T key n with
    | error e' => rw [ek] at e; cases e
    | ok keys =>
      rw [ek, ok_bind] at e
      cases e
      exact ⟨by show 4 * (4 * (n + 1)) ≤ 240; omega, rfl⟩
  have facts : keyBytes a' ≤ 240 ∧ (r = .ok () ∨ a' = a ∧ ∃ e, r = .error e) := by
    unfold AES.init at hr
    dsimp only at hr
    split at hr
    · have := go 10 (by decide) hr; exact ⟨this.1, .inl this.2⟩
    · have := go 12 (by decide) hr; exact ⟨this.1, .inl this.2⟩
    · have := go 14 (by decide) hr; exact ⟨this.1, .inl this.2⟩
    · cases hr; exact ⟨ha, .inr ⟨rfl, _, rfl⟩⟩
  obtain ⟨f1, rfl | ⟨rfl, e, rfl⟩⟩ := facts
  · exact Post.take <| Post.give <| Post.pure ⟨f1, by show L + keyBytes a' - keyBytes a = L - keyBytes a + keyBytes a'; omega,
      by show max P (L + keyBytes a') ≤ _; omega⟩
  · exact Post.pure ⟨f1, by show L = _ - (keyBytes a' : Int) + keyBytes a'; omega, by show P ≤ _; omega⟩

/-! ### `Cipher` -/

theorem encrypt_block_heap (T : Target) (c : Growing.Cipher) (b : List U8) (L P : Int) :
    Post (Cipher.encrypt_block T c b ⟨L, P⟩) fun q h => q.1.pad = c.pad ∧ q.1.aes = c.aes ∧ (∀ v, q.2 = .ok v → v.data.length = 16 ∧ v.cap = 16) ∧
      h.live = L + okCap q.2 ∧ h.peak ≤ max P (L + 16) := by
  unfold Cipher.encrypt_block
  refine Post.lift ?_
  rintro ⟨c', r⟩ hr
  have facts : c'.pad = c.pad ∧ c'.aes = c.aes ∧ ∀ v, r = .ok v → v.data.length = 16 ∧ v.cap = 16 := by
    unfold Growing.Cipher.encrypt_block at hr
    cases e1 : arrayFromSlice BLOCK_SIZE b with
    | error e => rw [e1] at hr; cases hr
    | ok block =>
    rw [e1, ok_bind] at hr
    dsimp only at hr
    cases e2 : c.aes.encrypt (xorBlock block c.iv) with
    | error e => rw [e2] at hr; cases hr
    | ok res =>
    rw [e2, ok_bind] at hr
    cases res with
    | error e => cases hr; exact ⟨rfl, rfl, (by intro v hv; cases hv)⟩
    | ok new_iv =>
      dsimp only at hr
      rw [Growing.VecU8.ofSlice] at hr
      cases e3 : T.reserve 1 new_iv.toList.length with
      | error e => rw [e3] at hr; cases hr
      | ok _ =>
        rw [e3] at hr
        cases hr
        refine ⟨rfl, rfl, ?_⟩
        intro v hv
        cases hv
        simp
  obtain ⟨f1, f2, f3⟩ := facts
  cases r with
  | error e => exact Post.pure ⟨f1, f2, f3, by show L = L + 0; omega, by show P ≤ _; omega⟩
  | ok v =>
    have := (f3 v rfl).2
    exact Post.take (Post.pure ⟨f1, f2, f3, rfl, by show max P (L + v.cap) ≤ _; omega⟩)

theorem cipher_loop_heap (T : Target) (G : Policy) (bs : List (List U8)) (c : Growing.Cipher) (w : VecU8) (hw : w.data.length + 16 * bs.length ≤ w.cap)
    (L P : Int) :
    Post (Cipher.writeLoop T G bs c w ⟨L, P⟩) fun q h => q.1.pad = c.pad ∧ q.1.aes = c.aes ∧
      h.live = L - w.cap + okCap q.2 ∧ h.peak ≤ max P (L + 16) := by
  induction bs generalizing c w L P with
  | nil => exact Post.pure ⟨rfl, rfl, by show L = L - w.cap + w.cap; omega, by show P ≤ _; omega⟩
  | cons b bs ih =>
    rw [Cipher.writeLoop]
    refine Post.bind (encrypt_block_heap T c b L P) ?_
    rintro ⟨c', r⟩ ⟨L', P'⟩ ⟨i1, i2, i3, i4, i5⟩
    change L' = _ at i4
    change P' ≤ _ at i5
    cases r with
    | error e =>
      change L' = L + 0 at i4
      exact Post.give <| Post.pure ⟨i1, i2, by show L' - w.cap = L - w.cap + 0; omega, by show P' ≤ _; omega⟩
    | ok v =>
      change L' = L + v.cap at i4
      obtain ⟨j1, j2⟩ := i3 v rfl
      rw [List.length_cons] at hw
      refine append_room T G w v (by omega) (Post.give ?_)
      refine Post.mono (ih c' ⟨w.data ++ v.data, w.cap⟩ (by show (w.data ++ v.data).length + _ ≤ w.cap; rw [List.length_append]; omega) (L' - v.cap) P') ?_
      rintro q L2 P2 ⟨k1, k2, k3, k4⟩
      change L2 = L' - v.cap - w.cap + _ at k3
      change P2 ≤ _ at k4
      exact ⟨k1.trans i1, k2.trans i2, by show L2 = _; omega, by show P2 ≤ _; omega⟩

theorem cipher_write_heap (T : Target) (G : Policy) (c : Growing.Cipher) (b : List U8) (hb : c.pad.block_size = 16) (hs : Small 16 c.pad.storage) (L P : Int)
    (N : Nat) (hN : c.pad.storage.data.length + b.length ≤ N) :
    Post (Cipher.write T G c b ⟨L, P⟩) fun q h => q.1.aes = c.aes ∧ q.1.pad.block_size = 16 ∧ Small 16 q.1.pad.storage ∧
      q.1.pad.storage.cap ≤ max c.pad.storage.cap (2 * N) ∧ h.live = L - c.pad.storage.cap + q.1.pad.storage.cap + okCap q.2 ∧
      h.peak ≤ max P (L - c.pad.storage.cap + max c.pad.storage.cap (2 * N) + 2 * N + 16) := by
  unfold Cipher.write
  refine Post.bind (pad_write_heap T G c.pad b hb hs L P N hN) ?_
  rintro ⟨p, o⟩ ⟨L', P'⟩ ⟨i1, i2, i3, i4, i5, i6⟩
  change L' = _ at i5
  change P' ≤ _ at i6
  dsimp only at i1 i2 i3 i4 i5 ⊢
  cases o with
  | none =>
    change L' = _ + 0 at i5
    exact Post.pure ⟨rfl, i1, i2, i3, by show L' = _ + (p.storage.cap : Int) + 0; omega, by show P' ≤ _; omega⟩
  | some head =>
    change L' = _ + (head.cap : Int) at i5
    obtain ⟨j1, j2, j3⟩ := i4 head rfl
    refine withCapacity_heap T _ (Post.lift fun bs hbs => ?_)
    have hl := Growing.blocks_len head.data bs (head.data.length / 16) (by omega) hbs
    refine Post.bind (cipher_loop_heap T G bs _ ⟨[], head.data.length⟩ (by show 0 + _ ≤ head.data.length; omega) _ _) ?_
    rintro ⟨c', r⟩ ⟨L2, P2⟩ ⟨k1, k2, k3, k4⟩
    change L2 = L' + _ - (head.data.length : Int) + okCap r at k3
    change P2 ≤ _ at k4
    dsimp only at k1 k2
    refine Post.give <| Post.pure ⟨k2, ?_, ?_, ?_, ?_, ?_⟩
    · show c'.pad.block_size = 16
      rw [k1]; exact i1
    · show Small 16 c'.pad.storage
      rw [k1]; exact i2
    · show c'.pad.storage.cap ≤ _
      rw [k1]; exact i3
    · show L2 - head.cap = _ + (c'.pad.storage.cap : Int) + okCap r
      rw [k1]
      show L2 - head.cap = _ + (p.storage.cap : Int) + okCap r
      omega
    · show P2 ≤ _
      omega

theorem cipher_flush_heap (T : Target) (G : Policy) (c : Growing.Cipher) (hb : c.pad.block_size = 16) (hs : Small 16 c.pad.storage) (L P : Int) :
    Post (Cipher.flush T G c ⟨L, P⟩) fun q h => q.1.aes = c.aes ∧ q.1.pad.block_size = 16 ∧ Small 16 q.1.pad.storage ∧
      q.1.pad.storage.cap = c.pad.storage.cap ∧ h.live = L + okCap q.2 ∧ h.peak ≤ max P (L + 32) := by
  unfold Cipher.flush
  have h2 := hs.2
  refine Post.bind (pad_flush_heap T G c.pad hb hs L P) ?_
  rintro ⟨p, v⟩ ⟨L', P'⟩ ⟨i1, i2, i3, i4, i5, i6⟩
  change L' = _ at i5
  change P' ≤ _ at i6
  dsimp only at i1 i2 i3 i4 ⊢
  refine Post.bind (encrypt_block_heap T _ _ _ _) ?_
  rintro ⟨c', r⟩ ⟨L2, P2⟩ ⟨k1, k2, k3, k4, k5⟩
  change L2 = _ at k4
  change P2 ≤ _ at k5
  dsimp only at k1 k2 k4
  refine Post.give <| Post.pure ⟨k2, ?_, ?_, ?_, ?_, ?_⟩
  · show c'.pad.block_size = 16
    rw [k1]; exact i1
  · show Small 16 c'.pad.storage
    rw [k1]
    exact ⟨by show p.storage.data.length < 16; rw [i2]; decide, by show 32 ≤ p.storage.cap; omega⟩
  · show c'.pad.storage.cap = _
    rw [k1]; exact i3
  · show L2 - v.cap = _
    show L2 - v.cap = L + okCap r
    omega
  · show P2 ≤ _
    omega

theorem read_heap {σ ε : Type} {f : H (σ × Except ε VecU8)} {Q : σ → Nat → Int → Int → Prop} {h : Heap}
    (hf : Post (f h) fun q h => Q q.1 (okCap q.2) h.live h.peak) :
    Post ((f >>= read) h) fun q h => ∃ n : Nat, Q q.1 n (h.live + n) h.peak := by
  refine Post.bind hf ?_
  rintro ⟨s, r⟩ ⟨L', P'⟩ hq
  cases r with
  | error e => exact Post.pure ⟨0, by show Q s 0 (L' + 0) P'; rw [Int.add_zero]; exact hq⟩
  | ok v =>
    refine Post.give <| Post.pure ⟨v.cap, ?_⟩
    show Q s v.cap (L' - v.cap + v.cap) P'
    rw [Int.sub_add_cancel]; exact hq

/-- What holds of a `Cipher` between the calls of a history whose longest `write` has `n` octets. -/
structure CHeap (n : Nat) (c : Growing.Cipher) : Prop where
  keys : keyBytes c.aes ≤ 240
  size : c.pad.block_size = 16
  small : Small 16 c.pad.storage
  cap : c.pad.storage.cap ≤ max 32 (2 * (n + 15))

theorem cstep_heap (T : Target) (G : Policy) (n : Nat) (c : Growing.Cipher) (x : Call) (hc : CHeap n c) (hx : ∀ b, x = .write b → b.length ≤ n)
    (B P : Int) :
    Post (cstep T G c x ⟨B + Cipher.held c, P⟩) fun q h => CHeap n q.1 ∧ h.live = B + Cipher.held q.1 ∧ h.peak ≤ max P (B + 4 * n + 512) := by
  obtain ⟨c1, c2, c3, c4⟩ := hc
  have hh : (Cipher.held c : Int) = keyBytes c.aes + c.pad.storage.cap := by rw [Cipher.held]; omega
  cases x with
  | init key =>
    refine Post.bind (f := Cipher.init T c key) (Q := fun q h => CHeap n q.1 ∧ h.live = B + Cipher.held q.1 ∧ h.peak ≤ max P (B + 4 * n + 512)) ?_
      (fun q h hq => Post.pure hq)
    refine Post.bind (initAes_heap T c.aes key c1 _ P) ?_
    rintro ⟨a, r⟩ ⟨L', P'⟩ ⟨i1, i2, i3⟩
    change L' = _ at i2
    change P' ≤ _ at i3
    refine Post.pure ⟨⟨i1, c2, c3, c4⟩, ?_, ?_⟩
    · show L' = B + ((keyBytes a + c.pad.storage.cap : Nat) : Int)
      dsimp only at i2
      omega
    · show P' ≤ _
      omega
  | write b =>
    have hb := hx b rfl
    have := c3.1
    refine Post.mono (read_heap (Q := fun c' k L' P' => CHeap n c' ∧ L' = B + Cipher.held c' + k ∧ P' ≤ max P (B + 4 * n + 512))
      (Post.mono (cipher_write_heap T G c b c2 c3 _ P (n + 15) (by omega)) ?_)) ?_
    · rintro ⟨c', r⟩ L' P' ⟨i1, i2, i3, i4, i5, i6⟩
      change L' = _ at i5
      change P' ≤ _ at i6
      dsimp only at i1 i2 i3 i4 i5
      refine ⟨⟨by show keyBytes c'.aes ≤ 240; rw [i1]; exact c1, i2, i3, by show c'.pad.storage.cap ≤ _; omega⟩, ?_, ?_⟩
      · show L' = B + ((keyBytes c'.aes + c'.pad.storage.cap : Nat) : Int) + okCap r
        rw [i1]; omega
      · show P' ≤ _
        omega
    · rintro q L' P' ⟨k, h1, h2, h3⟩
      exact ⟨h1, by show L' = _; change L' + k = _ at h2; omega, h3⟩
  | flush =>
    refine Post.mono (read_heap (Q := fun c' k L' P' => CHeap n c' ∧ L' = B + Cipher.held c' + k ∧ P' ≤ max P (B + 4 * n + 512))
      (Post.mono (cipher_flush_heap T G c c2 c3 _ P) ?_)) ?_
    · rintro ⟨c', r⟩ L' P' ⟨i1, i2, i3, i4, i5, i6⟩
      change L' = _ at i5
      change P' ≤ _ at i6
      dsimp only at i1 i2 i3 i4 i5
      refine ⟨⟨by show keyBytes c'.aes ≤ 240; rw [i1]; exact c1, i2, i3, by show c'.pad.storage.cap ≤ _; omega⟩, ?_, ?_⟩
      · show L' = B + ((keyBytes c'.aes + c'.pad.storage.cap : Nat) : Int) + okCap r
        rw [i1]; omega
      · show P' ≤ _
        omega
    · rintro q L' P' ⟨k, h1, h2, h3⟩
      exact ⟨h1, by show L' = _; change L' + k = _ at h2; omega, h3⟩

theorem crun_heap (T : Target) (G : Policy) (n : Nat) (calls : List Call) (c : Growing.Cipher) (hc : CHeap n c)
    (hx : ∀ b, Call.write b ∈ calls → b.length ≤ n) (B P : Int) :
    Post (crun T G c calls ⟨B + Cipher.held c, P⟩) fun q h => CHeap n q.1 ∧ h.live = B + Cipher.held q.1 ∧ h.peak ≤ max P (B + 4 * n + 512) := by
  induction calls generalizing c P with
  | nil => exact Post.pure ⟨hc, rfl, by show P ≤ _; omega⟩
  | cons x xs ih =>
    refine Post.bind (cstep_heap T G n c x hc (fun b hb => hx b (by rw [hb]; exact List.mem_cons_self)) B P) ?_
    rintro ⟨c1, r⟩ ⟨L', P'⟩ ⟨i1, i2, i3⟩
    change L' = _ at i2
    change P' ≤ _ at i3
    subst i2
    refine Post.bind (ih c1 i1 (fun b hb => hx b (List.mem_cons_of_mem _ hb)) P') ?_
    rintro ⟨c2, rs⟩ ⟨L2, P2⟩ ⟨j1, j2, j3⟩
    change P2 ≤ _ at j3
    exact Post.pure ⟨j1, j2, by show P2 ≤ _; omega⟩

theorem csession_heap (T : Target) (G : Policy) (n : Nat) (iv : Vector U8 16) (calls : List Call) (hx : ∀ b, Call.write b ∈ calls → b.length ≤ n) (B : Int) :
    Post (csession T G iv calls ⟨B, B⟩) fun q h => CHeap n q.1 ∧ h.live = B + Cipher.held q.1 ∧ h.peak ≤ B + 4 * n + 512 := by
  refine Post.bind (f := Cipher.new T iv) (Q := fun c h => c = ⟨AES.new, ⟨BLOCK_SIZE, ⟨[], 32⟩⟩, iv⟩ ∧ h = ⟨B + 32, max B (B + 32)⟩) ?_ ?_
  · refine Post.bind (f := Pad.new T BLOCK_SIZE) (Q := fun p h => p = ⟨BLOCK_SIZE, ⟨[], 32⟩⟩ ∧ h = ⟨B + 32, max B (B + 32)⟩) ?_ ?_
    · exact withCapacity_heap T _ (Post.pure ⟨rfl, rfl⟩)
    · rintro p h ⟨rfl, rfl⟩
      exact Post.pure ⟨rfl, rfl⟩
  · rintro c h ⟨rfl, rfl⟩
    refine Post.mono (crun_heap T G n calls ⟨AES.new, ⟨BLOCK_SIZE, ⟨[], 32⟩⟩, iv⟩ ⟨by show 0 ≤ 240; decide, rfl,
      ⟨by show 0 < 16; decide, by show 32 ≤ 32; decide⟩, by show 32 ≤ _; omega⟩ hx B (max B (B + 32))) ?_
    rintro q L' P' ⟨h1, h2, h3⟩
    change P' ≤ _ at h3
    exact ⟨h1, h2, by show P' ≤ _; omega⟩

/-! ### `Decipher` -/

theorem decipher_loop_heap (T : Target) (G : Policy) (bs : List (List U8)) (d : Growing.Decipher) (w : VecU8) (hw : w.data.length + 16 * bs.length ≤ w.cap)
    (L P : Int) :
    Post (Decipher.writeLoop T G bs d w ⟨L, P⟩) fun q h => q.1.buffer = d.buffer ∧ q.1.unpad = d.unpad ∧ q.1.aes = d.aes ∧
      (∀ v, q.2 = .ok v → v.data.length = w.data.length + 16 * bs.length ∧ v.cap = w.cap) ∧ h.live = L - w.cap + okCap q.2 ∧ h.peak ≤ max P (L + 16) := by
  induction bs generalizing d w L P with
  | nil => exact Post.pure ⟨rfl, rfl, rfl, (by intro v hv; cases hv; exact ⟨rfl, rfl⟩), by show L = L - w.cap + w.cap; omega, by show P ≤ _; omega⟩
  | cons b bs ih =>
    rw [Decipher.writeLoop]
    refine Post.lift fun block _ => Post.lift fun r _ => ?_
    cases r with
    | error e => exact Post.give <| Post.pure ⟨rfl, rfl, rfl, (by intro v hv; cases hv), by show L - w.cap = L - w.cap + 0; omega, by show P ≤ _; omega⟩
    | ok v =>
      rw [List.length_cons] at hw
      have hl : (xorBlock v d.iv).toList.length = 16 := by simp
      refine ofSlice_heap T _ (append_room T G w ⟨(xorBlock v d.iv).toList, (xorBlock v d.iv).toList.length⟩ (by
        show _ + (xorBlock v d.iv).toList.length ≤ _; omega) (Post.give ?_))
      simp only [hl]
      refine Post.mono (ih _ ⟨w.data ++ (xorBlock v d.iv).toList, w.cap⟩ (by
        show (w.data ++ (xorBlock v d.iv).toList).length + _ ≤ w.cap; rw [List.length_append]; omega) _ _) ?_
      rintro q L2 P2 ⟨k1, k2, k3, k4, k5, k6⟩
      change L2 = L + (16 : Nat) - (16 : Nat) - w.cap + _ at k5
      change P2 ≤ _ at k6
      refine ⟨k1, k2, k3, ?_, by show L2 = _; omega, by show P2 ≤ _; omega⟩
      intro u hu
      have h5 : u.data.length = (w.data ++ (xorBlock v d.iv).toList).length + 16 * bs.length ∧ u.cap = w.cap := k4 u hu
      rw [h5.1, List.length_append, List.length_cons, hl]
      exact ⟨by omega, h5.2⟩

theorem decipher_write_heap (T : Target) (G : Policy) (d : Growing.Decipher) (b : List U8) (hb : d.buffer.block_size = 16) (hs : Small 16 d.buffer.storage)
    (hu : d.unpad.block_size = 16) (ht : Small 17 d.unpad.storage) (L P : Int) (N : Nat) (hN : d.buffer.storage.data.length + b.length ≤ N) :
    Post (Decipher.write T G d b ⟨L, P⟩) fun q h => q.1.aes = d.aes ∧ q.1.buffer.block_size = 16 ∧ Small 16 q.1.buffer.storage ∧
      q.1.unpad.block_size = 16 ∧ Small 17 q.1.unpad.storage ∧
      q.1.buffer.storage.cap ≤ max d.buffer.storage.cap (2 * N) ∧ q.1.unpad.storage.cap ≤ max d.unpad.storage.cap (2 * (N + 16)) ∧
      h.live = L - d.buffer.storage.cap - d.unpad.storage.cap + q.1.buffer.storage.cap + q.1.unpad.storage.cap + okCap q.2 ∧
      h.peak ≤ max P (L - d.buffer.storage.cap - d.unpad.storage.cap + max d.buffer.storage.cap (2 * N) + max d.unpad.storage.cap (2 * (N + 16)) +
        3 * N + 32) := by
  unfold Decipher.write
  have hu2 := ht.1
  refine Post.bind (pad_write_heap T G d.buffer b hb hs L P N hN) ?_
  rintro ⟨p, o⟩ ⟨L', P'⟩ ⟨i1, i2, i3, i4, i5, i6⟩
  change L' = _ at i5
  change P' ≤ _ at i6
  dsimp only at i1 i2 i3 i4 i5 ⊢
  cases o with
  | none =>
    change L' = _ + 0 at i5
    exact Post.pure ⟨rfl, i1, i2, hu, ht, i3, Nat.le_max_left _ _, by show L' = _ + (p.storage.cap : Int) + d.unpad.storage.cap + 0; omega, by show P' ≤ _; omega⟩
  | some head =>
    change L' = _ + (head.cap : Int) at i5
    obtain ⟨j1, j2, j3⟩ := i4 head rfl
    refine withCapacity_heap T _ (Post.lift fun bs hbs => ?_)
    have hl := Growing.blocks_len head.data bs (head.data.length / 16) (by omega) hbs
    refine Post.bind (decipher_loop_heap T G bs _ ⟨[], head.data.length⟩ (by show 0 + _ ≤ head.data.length; omega) _ _) ?_
    rintro ⟨d', r⟩ ⟨L2, P2⟩ ⟨k1, k2, k3, k4, k5, k6⟩
    change L2 = L' + _ - (head.data.length : Int) + okCap r at k5
    change P2 ≤ _ at k6
    dsimp only at k1 k2 k3 k4 ⊢
    cases r with
    | error e =>
      change L2 = L' + _ - (head.data.length : Int) + 0 at k5
      refine Post.give <| Post.pure ⟨k3, ?_, ?_, ?_, ?_, ?_, ?_, ?_, ?_⟩
      · show d'.buffer.block_size = 16
        rw [k1]; exact i1
      · show Small 16 d'.buffer.storage
        rw [k1]; exact i2
      · show d'.unpad.block_size = 16
        rw [k2]; exact hu
      · show Small 17 d'.unpad.storage
        rw [k2]; exact ht
      · show d'.buffer.storage.cap ≤ _
        rw [k1]; exact i3
      · show d'.unpad.storage.cap ≤ _
        rw [k2]; exact Nat.le_max_left _ _
      · show L2 - head.cap = _ + (d'.buffer.storage.cap : Int) + (d'.unpad.storage.cap : Int) + 0
        rw [k1, k2]
        show L2 - head.cap = _ + (p.storage.cap : Int) + (d.unpad.storage.cap : Int) + 0
        omega
      · show P2 ≤ _
        omega
    | ok w =>
      change L2 = L' + _ - (head.data.length : Int) + w.cap at k5
      have k7 : w.data.length = 0 + 16 * bs.length ∧ w.cap = head.data.length := k4 w rfl
      refine Post.bind (unpad_write_heap T G d'.unpad w.data (by rw [k2]; exact hu) (by rw [k2]; exact ht) L2 P2 (N + 16) (by
        rw [k2]; show d.unpad.storage.data.length + _ ≤ _; omega)) ?_
      rintro ⟨u, o2⟩ ⟨L3, P3⟩ ⟨l1, l2, l3, l4, l5, l6⟩
      change L3 = _ at l5
      change P3 ≤ _ at l6
      dsimp only at l1 l2 l3 l4 l5
      rw [k2] at l3 l5 l6
      change u.storage.cap ≤ max d.unpad.storage.cap _ at l3
      change L3 = _ - (d.unpad.storage.cap : Int) + _ + _ at l5
      change P3 ≤ max _ (_ - (d.unpad.storage.cap : Int) + max d.unpad.storage.cap _ + _ + _) at l6
      have ho : (o2.getD ⟨[], 0⟩).cap = optCap o2 := by cases o2 <;> rfl
      refine Post.give <| Post.give <| Post.pure ⟨k3, ?_, ?_, l1, l2, ?_, l3, ?_, ?_⟩
      · show d'.buffer.block_size = 16
        rw [k1]; exact i1
      · show Small 16 d'.buffer.storage
        rw [k1]; exact i2
      · show d'.buffer.storage.cap ≤ _
        rw [k1]; exact i3
      · show L3 - w.cap - head.cap = _ + (d'.buffer.storage.cap : Int) + (u.storage.cap : Int) + ((o2.getD ⟨[], 0⟩).cap : Int)
        rw [ho, k1]
        show L3 - w.cap - head.cap = _ + (p.storage.cap : Int) + (u.storage.cap : Int) + (optCap o2 : Int)
        omega
      · show P3 ≤ _
        omega

theorem decipher_flush_heap (T : Target) (d : Growing.Decipher) (hu : d.unpad.block_size = 16) (ht : Small 17 d.unpad.storage) (L P : Int) :
    Post (Decipher.flush T d ⟨L, P⟩) fun q h => q.1.aes = d.aes ∧ q.1.buffer = d.buffer ∧ q.1.unpad.block_size = 16 ∧ Small 17 q.1.unpad.storage ∧
      q.1.unpad.storage.cap = d.unpad.storage.cap ∧ h.live = L + okCap q.2 ∧ h.peak ≤ max P (L + 16) := by
  unfold Decipher.flush
  refine Post.bind (unpad_flush_heap T d.unpad hu ht L P) ?_
  rintro ⟨p, r⟩ ⟨L', P'⟩ ⟨i1, i2, i3, i4, i5, i6⟩
  cases r with
  | error e => exact Post.pure ⟨rfl, rfl, i1, i2, i3, i5, i6⟩
  | ok v => exact Post.pure ⟨rfl, rfl, i1, i2, i3, i5, i6⟩

/-- What holds of a `Decipher` between the calls of a history whose longest `write` has `n` octets. -/
structure DHeap (n : Nat) (d : Growing.Decipher) : Prop where
  keys : keyBytes d.aes ≤ 240
  size : d.buffer.block_size = 16
  small : Small 16 d.buffer.storage
  cap : d.buffer.storage.cap ≤ max 32 (2 * (n + 15))
  size' : d.unpad.block_size = 16
  small' : Small 17 d.unpad.storage
  cap' : d.unpad.storage.cap ≤ max 32 (2 * (n + 31))

theorem dstep_heap (T : Target) (G : Policy) (n : Nat) (d : Growing.Decipher) (x : Call) (hd : DHeap n d) (hx : ∀ b, x = .write b → b.length ≤ n)
    (B P : Int) :
    Post (dstep T G d x ⟨B + Decipher.held d, P⟩) fun q h => DHeap n q.1 ∧ h.live = B + Decipher.held q.1 ∧ h.peak ≤ max P (B + 7 * n + 576) := by
  obtain ⟨c1, c2, c3, c4, c5, c6, c7⟩ := hd
  have hh : (Decipher.held d : Int) = keyBytes d.aes + d.buffer.storage.cap + d.unpad.storage.cap := by rw [Decipher.held]; omega
  cases x with
  | init key =>
    refine Post.bind (f := Decipher.init T d key) (Q := fun q h => DHeap n q.1 ∧ h.live = B + Decipher.held q.1 ∧ h.peak ≤ max P (B + 7 * n + 576)) ?_
      (fun q h hq => Post.pure hq)
    refine Post.bind (initAes_heap T d.aes key c1 _ P) ?_
    rintro ⟨a, r⟩ ⟨L', P'⟩ ⟨i1, i2, i3⟩
    change L' = _ at i2
    change P' ≤ _ at i3
    refine Post.pure ⟨⟨i1, c2, c3, c4, c5, c6, c7⟩, ?_, ?_⟩
    · show L' = B + ((keyBytes a + d.buffer.storage.cap + d.unpad.storage.cap : Nat) : Int)
      dsimp only at i2
      omega
    · show P' ≤ _
      omega
  | write b =>
    have hb := hx b rfl
    have := c3.1
    refine Post.mono (read_heap (Q := fun d' k L' P' => DHeap n d' ∧ L' = B + Decipher.held d' + k ∧ P' ≤ max P (B + 7 * n + 576))
      (Post.mono (decipher_write_heap T G d b c2 c3 c5 c6 _ P (n + 15) (by omega)) ?_)) ?_
    · rintro ⟨d', r⟩ L' P' ⟨i1, i2, i3, i4, i5, i6, i7, i8, i9⟩
      change L' = _ at i8
      change P' ≤ _ at i9
      dsimp only at i1 i2 i3 i4 i5 i6 i7 i8
      refine ⟨⟨by show keyBytes d'.aes ≤ 240; rw [i1]; exact c1, i2, i3, by show d'.buffer.storage.cap ≤ _; omega, i4, i5,
        by show d'.unpad.storage.cap ≤ _; omega⟩, ?_, ?_⟩
      · show L' = B + ((keyBytes d'.aes + d'.buffer.storage.cap + d'.unpad.storage.cap : Nat) : Int) + okCap r
        rw [i1]; omega
      · show P' ≤ _
        omega
    · rintro q L' P' ⟨k, h1, h2, h3⟩
      exact ⟨h1, by show L' = _; change L' + k = _ at h2; omega, h3⟩
  | flush =>
    refine Post.mono (read_heap (Q := fun d' k L' P' => DHeap n d' ∧ L' = B + Decipher.held d' + k ∧ P' ≤ max P (B + 7 * n + 576))
      (Post.mono (decipher_flush_heap T d c5 c6 _ P) ?_)) ?_
    · rintro ⟨d', r⟩ L' P' ⟨i1, i2, i3, i4, i5, i6, i7⟩
      change L' = _ at i6
      change P' ≤ _ at i7
      dsimp only at i1 i2 i3 i4 i5 i6
      refine ⟨⟨by show keyBytes d'.aes ≤ 240; rw [i1]; exact c1, by rw [i2]; exact c2, by rw [i2]; exact c3, by rw [i2]; exact c4, i3, i4,
        by show d'.unpad.storage.cap ≤ _; omega⟩, ?_, ?_⟩
      · show L' = B + ((keyBytes d'.aes + d'.buffer.storage.cap + d'.unpad.storage.cap : Nat) : Int) + okCap r
        rw [i1, i2]; omega
      · show P' ≤ _
        omega
    · rintro q L' P' ⟨k, h1, h2, h3⟩
      exact ⟨h1, by show L' = _; change L' + k = _ at h2; omega, h3⟩

theorem drun_heap (T : Target) (G : Policy) (n : Nat) (calls : List Call) (d : Growing.Decipher) (hd : DHeap n d)
    (hx : ∀ b, Call.write b ∈ calls → b.length ≤ n) (B P : Int) :
    Post (drun T G d calls ⟨B + Decipher.held d, P⟩) fun q h => DHeap n q.1 ∧ h.live = B + Decipher.held q.1 ∧ h.peak ≤ max P (B + 7 * n + 576) := by
  induction calls generalizing d P with
  | nil => exact Post.pure ⟨hd, rfl, by show P ≤ _; omega⟩
  | cons x xs ih =>
    refine Post.bind (dstep_heap T G n d x hd (fun b hb => hx b (by rw [hb]; exact List.mem_cons_self)) B P) ?_
    rintro ⟨d1, r⟩ ⟨L', P'⟩ ⟨i1, i2, i3⟩
    change L' = _ at i2
    change P' ≤ _ at i3
    subst i2
    refine Post.bind (ih d1 i1 (fun b hb => hx b (List.mem_cons_of_mem _ hb)) P') ?_
    rintro ⟨d2, rs⟩ ⟨L2, P2⟩ ⟨j1, j2, j3⟩
    change P2 ≤ _ at j3
    exact Post.pure ⟨j1, j2, by show P2 ≤ _; omega⟩

theorem dsession_heap (T : Target) (G : Policy) (n : Nat) (iv : Vector U8 16) (calls : List Call) (hx : ∀ b, Call.write b ∈ calls → b.length ≤ n) (B : Int) :
    Post (dsession T G iv calls ⟨B, B⟩) fun q h => DHeap n q.1 ∧ h.live = B + Decipher.held q.1 ∧ h.peak ≤ B + 7 * n + 576 := by
  refine Post.bind (f := Decipher.new T iv) (Q := fun d h => d = ⟨AES.new, ⟨BLOCK_SIZE, ⟨[], 32⟩⟩, iv, ⟨BLOCK_SIZE, ⟨[], 32⟩⟩⟩ ∧
    h = ⟨B + 32 + 32, max (max B (B + 32)) (B + 32 + 32)⟩) ?_ ?_
  · refine Post.bind (f := Unpad.new T BLOCK_SIZE) (Q := fun p h => p = ⟨BLOCK_SIZE, ⟨[], 32⟩⟩ ∧ h = ⟨B + 32, max B (B + 32)⟩) ?_ ?_
    · exact withCapacity_heap T _ (Post.pure ⟨rfl, rfl⟩)
    · rintro p h ⟨rfl, rfl⟩
      refine Post.bind (f := Pad.new T BLOCK_SIZE) (Q := fun p h => p = ⟨BLOCK_SIZE, ⟨[], 32⟩⟩ ∧
        h = ⟨B + 32 + 32, max (max B (B + 32)) (B + 32 + 32)⟩) ?_ ?_
      · exact withCapacity_heap T _ (Post.pure ⟨rfl, rfl⟩)
      · rintro p h ⟨rfl, rfl⟩
        exact Post.pure ⟨rfl, rfl⟩
  · rintro d h ⟨rfl, rfl⟩
    have hB : B + 32 + 32 = B + Decipher.held ⟨AES.new, ⟨BLOCK_SIZE, ⟨[], 32⟩⟩, iv, ⟨BLOCK_SIZE, ⟨[], 32⟩⟩⟩ := by
      show B + 32 + 32 = B + 64; omega
    rw [hB]
    refine Post.mono (drun_heap T G n calls _ ⟨by show 0 ≤ 240; decide, rfl,
      ⟨by show 0 < 16; decide, by show 32 ≤ 32; decide⟩, by show 32 ≤ _; omega, rfl, ⟨by show 0 < 17; decide, by show 32 ≤ 32; decide⟩,
      by show 32 ≤ _; omega⟩ hx B _) ?_
    rintro q L' P' ⟨h1, h2, h3⟩
    rw [← hB] at h3
    change P' ≤ _ at h3
    exact ⟨h1, h2, by show P' ≤ _; omega⟩

end Verif.Heap
