import Verif.Model.Caught
import Verif.Proof.Growing
import Verif.Spec.CbcCaught

/-! `Cipher` with caught panics (`Model/Caught.lean`) against `Cipher` without (`Model/Growing.lean`). -/

namespace Verif.Growing.Caught
open Verif Verif.Aes Verif.Pkcs7 Verif.AesCbc Verif.Growing Spec.Cbc

section
variable {σ α β : Type}

theorem bind_ok (m : U σ α) (f : α → U σ β) (s s' : σ) (a : α) (h : m s = (.ok a, s')) : (m >>= f) s = f a s' := by
  show (match m s with | (.ok a, s) => f a s | (.error p, s) => (.error p, s)) = _
  rw [h]

theorem bind_err (m : U σ α) (f : α → U σ β) (s s' : σ) (p : Panic) (h : m s = (.error p, s')) : (m >>= f) s = (.error p, s') := by
  show (match m s with | (.ok a, s) => f a s | (.error p, s) => (.error p, s)) = _
  rw [h]

theorem ofM_ok (m : M α) (f : α → U σ β) (s : σ) (a : α) (h : m = .ok a) : (ofM m >>= f) s = f a s := by
  subst h; rfl

theorem self_bind (f : σ → U σ β) (s : σ) : (self >>= f) s = f s s := rfl
theorem assign_bind (f : Unit → U σ β) (s t : σ) : (assign t >>= f) s = f () t := rfl
theorem pure_run (a : α) (s : σ) : (pure a : U σ α) s = (.ok a, s) := rfl

end

theorem pushes_ok (T : Target) (G : Policy) (buf : List U8) (p : Growing.Pad) (v : VecU8) (h : pushAll T G p.storage buf = .ok v) :
    Pad.pushes T G buf p = (.ok (), { p with storage := v }) := by
  induction buf generalizing p with
  | nil => cases h; rfl
  | cons x buf ih =>
    have hp : (p.storage.push T G x >>= fun v => pushAll T G v buf) = .ok v := by
      rw [← h, pushAll, forEach_cons]; rfl
    cases h1 : p.storage.push T G x with
    | error e => rw [h1] at hp; cases hp
    | ok w =>
      rw [h1] at hp
      rw [Pad.pushes, self_bind, ofM_ok _ _ _ _ h1, assign_bind]
      exact ih { p with storage := w } hp

theorem pushes_full (T : Target) (buf : List U8) (p : Growing.Pad) (hg : Good T p.storage) (hp : Pow p.storage)
    (h : limit T < p.storage.data.length + buf.length) :
    Pad.pushes T std buf p = (.error .capacity, { p with storage := ⟨(p.storage.data ++ buf).take (limit T), limit T⟩ }) := by
  induction buf generalizing p with
  | nil =>
    have h1 := pow_limit T _ hg hp
    have h2 := hg.fits
    rw [List.length_nil] at h
    omega
  | cons x buf ih =>
    rw [Pad.pushes, self_bind]
    have key : ∀ c, p.storage.push T std x = .ok ⟨p.storage.data ++ [x], c⟩ → Good T ⟨p.storage.data ++ [x], c⟩ → Pow ⟨p.storage.data ++ [x], c⟩ →
        (ofM (p.storage.push T std x) >>= fun storage => assign { p with storage } >>= fun _ => Pad.pushes T std buf) p =
          (.error .capacity, { p with storage := ⟨(p.storage.data ++ x :: buf).take (limit T), limit T⟩ }) := by
      intro c h1 h2 h3
      rw [ofM_ok _ _ _ _ h1, assign_bind]
      rw [ih { p with storage := ⟨p.storage.data ++ [x], c⟩ } h2 h3 (by simp only [List.length_append, List.length_cons, List.length_nil] at h ⊢; omega)]
      simp
    by_cases hr : p.storage.data.length + 1 ≤ p.storage.cap
    · exact key _ (push_room T std _ x hr) ⟨by simp; omega, hg.room, hg.max⟩ hp
    · have hl : p.storage.data.length = p.storage.cap := by have := hg.fits; omega
      rcases push_full T std _ x hg hl with ⟨c, h1, h2, h3, h4, h5⟩ | ⟨h1, h2⟩
      · refine key c h1 h2 ?_
        obtain ⟨k, hk⟩ := hp
        refine ⟨k + 1, ?_⟩
        show c = _
        have := hg.room
        rw [h5, Nat.pow_succ, ← hk]
        simp only [std]
        omega
      · have h3 := pow_limit T _ hg hp
        have h4 := isizeMax_eq T
        have h5 : p.storage.data.length = limit T := by omega
        rw [bind_err _ _ p p .capacity (by rw [ofM, h1])]
        rw [List.take_left' h5, show limit T = p.storage.cap by omega]

theorem pad_write_erase (T : Target) (G : Policy) (buf : List U8) (p p' : Growing.Pad) (o : Option VecU8)
    (h : p.write T G buf = .ok (p', o)) : Pad.write T G buf p = (.ok o, p') := by
  unfold Growing.Pad.write at h
  change (pushAll T G p.storage buf >>= _) = _ at h
  cases h1 : pushAll T G p.storage buf with
  | error e => rw [h1] at h; cases h
  | ok v =>
    rw [h1, ok_bind] at h
    unfold Pad.write
    rw [bind_ok _ _ _ _ _ (pushes_ok T G buf p v h1), self_bind]
    dsimp only at h ⊢
    by_cases hl : v.data.length < p.block_size
    · rw [if_pos hl] at h ⊢
      cases h; rfl
    · rw [if_neg hl] at h ⊢
      cases h2 : T.rem v.data.length p.block_size with
      | error e => rw [h2] at h; cases h
      | ok tl =>
        rw [h2, ok_bind] at h
        rw [ofM_ok _ _ _ _ rfl]
        cases h3 : T.sub v.data.length tl with
        | error e => rw [h3] at h; cases h
        | ok tp =>
          rw [h3, ok_bind] at h
          rw [ofM_ok _ _ _ _ rfl]
          cases h4 : v.splitOff T tp with
          | error e => rw [h4] at h; cases h
          | ok q =>
            obtain ⟨v1, v2⟩ := q
            rw [h4, ok_bind] at h
            rw [ofM_ok _ _ _ _ rfl, assign_bind]
            dsimp only at h ⊢
            cases h5 : VecU8.ofSlice T v1.data with
            | error e => rw [h5] at h; cases h
            | ok hd =>
              rw [h5, ok_bind] at h
              rw [ofM_ok _ _ _ _ rfl, assign_bind]
              cases h6 : v1.clear.append T G v2 with
              | error e => rw [h6] at h; cases h
              | ok w =>
                rw [h6, ok_bind] at h
                rw [ofM_ok _ _ _ _ rfl, assign_bind]
                cases h; rfl

theorem pad_flush_erase (T : Target) (G : Policy) (p p' : Growing.Pad) (o : VecU8)
    (h : p.flush T G = .ok (p', o)) : Pad.flush T G p = (.ok o, p') := by
  unfold Growing.Pad.flush at h
  unfold Pad.flush
  rw [self_bind]
  cases h1 : T.sub p.block_size p.storage.data.length with
  | error e => rw [h1] at h; cases h
  | ok len =>
    rw [h1, ok_bind] at h
    rw [ofM_ok _ _ _ _ rfl]
    change (pushAll T G p.storage _ >>= _) = _ at h
    cases h2 : pushAll T G p.storage (List.replicate (p.block_size - p.storage.data.length) (BitVec.ofNat 8 len)) with
    | error e => rw [h2] at h; cases h
    | ok v =>
      rw [h2, ok_bind] at h
      rw [bind_ok _ _ _ _ _ (pushes_ok T G _ p v h2), self_bind]
      dsimp only at h ⊢
      cases h3 : VecU8.ofSlice T v.data with
      | error e => rw [h3] at h; cases h
      | ok r =>
        rw [h3, ok_bind] at h
        rw [ofM_ok _ _ _ _ rfl, assign_bind]
        cases h; rfl

theorem encrypt_block_erase (T : Target) (b : List U8) (c c' : Growing.Cipher) (r : Except AESError VecU8)
    (h : c.encrypt_block T b = .ok (c', r)) : Cipher.encrypt_block T b c = (.ok r, c') := by
  unfold Growing.Cipher.encrypt_block at h
  unfold Cipher.encrypt_block
  rw [self_bind]
  cases h1 : arrayFromSlice BLOCK_SIZE b with
  | error e => rw [h1] at h; cases h
  | ok block =>
    rw [h1, ok_bind] at h
    rw [ofM_ok _ _ _ _ rfl]
    dsimp only at h
    cases h2 : c.aes.encrypt (xorBlock block c.iv) with
    | error e => rw [h2] at h; cases h
    | ok res =>
      rw [h2, ok_bind] at h
      rw [ofM_ok _ _ _ _ rfl]
      cases res with
      | error e => cases h; rfl
      | ok iv =>
        dsimp only at h ⊢
        rw [assign_bind]
        cases h3 : VecU8.ofSlice T iv.toList with
        | error e => rw [h3] at h; cases h
        | ok out =>
          rw [h3, ok_bind] at h
          rw [ofM_ok _ _ _ _ rfl]
          cases h; rfl

theorem writeLoop_erase (T : Target) (G : Policy) (bs : List (List U8)) (w : VecU8) (c c' : Growing.Cipher) (r : Except AESError VecU8)
    (h : Growing.Cipher.writeLoop T G bs c w = .ok (c', r)) : Cipher.writeLoop T G bs w c = (.ok r, c') := by
  induction bs generalizing c w with
  | nil => cases h; rfl
  | cons b bs ih =>
    unfold Growing.Cipher.writeLoop at h
    rw [Cipher.writeLoop]
    cases h1 : c.encrypt_block T b with
    | error e => rw [h1] at h; cases h
    | ok q =>
      obtain ⟨c1, r1⟩ := q
      rw [h1, ok_bind] at h
      rw [bind_ok _ _ _ _ _ (encrypt_block_erase T b c c1 r1 h1)]
      cases r1 with
      | error e => cases h; rfl
      | ok v =>
        dsimp only at h ⊢
        cases h2 : w.append T G v with
        | error e => rw [h2] at h; cases h
        | ok w' =>
          rw [h2, ok_bind] at h
          rw [ofM_ok _ _ _ _ rfl]
          exact ih w' c1 h

theorem cipher_write_erase (T : Target) (G : Policy) (b : List U8) (c c' : Growing.Cipher) (r : Except AESError VecU8)
    (h : c.write T G b = .ok (c', r)) : Cipher.write T G b c = (.ok r, c') := by
  unfold Growing.Cipher.write at h
  unfold Cipher.write
  cases h1 : c.pad.write T G b with
  | error e => rw [h1] at h; cases h
  | ok q =>
    obtain ⟨p, o⟩ := q
    rw [h1, ok_bind] at h
    have h2 := pad_write_erase T G b c.pad p o h1
    rw [bind_ok _ _ c { c with pad := p } o (by rw [Cipher.onPad, h2])]
    cases o with
    | none => cases h; rfl
    | some blocks =>
      dsimp only at h ⊢
      cases h3 : VecU8.withCapacity T blocks.data.length with
      | error e => rw [h3] at h; cases h
      | ok w =>
        rw [h3, ok_bind] at h
        rw [ofM_ok _ _ _ _ rfl]
        cases h4 : chunks blocks.data BLOCK_SIZE with
        | error e => rw [h4] at h; cases h
        | ok bs =>
          rw [h4, ok_bind] at h
          rw [ofM_ok _ _ _ _ rfl]
          exact writeLoop_erase T G bs w _ c' r h

theorem cipher_flush_erase (T : Target) (G : Policy) (c c' : Growing.Cipher) (r : Except AESError VecU8)
    (h : c.flush T G = .ok (c', r)) : Cipher.flush T G c = (.ok r, c') := by
  unfold Growing.Cipher.flush at h
  unfold Cipher.flush
  cases h1 : c.pad.flush T G with
  | error e => rw [h1] at h; cases h
  | ok q =>
    obtain ⟨p, o⟩ := q
    rw [h1, ok_bind] at h
    have h2 := pad_flush_erase T G c.pad p o h1
    rw [bind_ok _ _ c { c with pad := p } o (by rw [Cipher.onPad, h2])]
    exact encrypt_block_erase T _ _ c' r h

/-! ### `Decipher` -/

theorem unpad_pushes_ok (T : Target) (G : Policy) (buf : List U8) (p : Growing.Unpad) (v : VecU8) (h : pushAll T G p.storage buf = .ok v) :
    Unpad.pushes T G buf p = (.ok (), { p with storage := v }) := by
  induction buf generalizing p with
  | nil => cases h; rfl
  | cons x buf ih =>
    have hp : (p.storage.push T G x >>= fun v => pushAll T G v buf) = .ok v := by
      rw [← h, pushAll, forEach_cons]; rfl
    cases h1 : p.storage.push T G x with
    | error e => rw [h1] at hp; cases hp
    | ok w =>
      rw [h1] at hp
      rw [Unpad.pushes, self_bind, ofM_ok _ _ _ _ h1, assign_bind]
      exact ih { p with storage := w } hp

theorem unpad_pushes_full (T : Target) (buf : List U8) (p : Growing.Unpad) (hg : Good T p.storage) (hp : Pow p.storage)
    (h : limit T < p.storage.data.length + buf.length) :
    Unpad.pushes T std buf p = (.error .capacity, { p with storage := ⟨(p.storage.data ++ buf).take (limit T), limit T⟩ }) := by
  induction buf generalizing p with
  | nil =>
    have h1 := pow_limit T _ hg hp
    have h2 := hg.fits
    rw [List.length_nil] at h
    omega
  | cons x buf ih =>
    rw [Unpad.pushes, self_bind]
    have key : ∀ c, p.storage.push T std x = .ok ⟨p.storage.data ++ [x], c⟩ → Good T ⟨p.storage.data ++ [x], c⟩ → Pow ⟨p.storage.data ++ [x], c⟩ →
        (ofM (p.storage.push T std x) >>= fun storage => assign { p with storage } >>= fun _ => Unpad.pushes T std buf) p =
          (.error .capacity, { p with storage := ⟨(p.storage.data ++ x :: buf).take (limit T), limit T⟩ }) := by
      intro c h1 h2 h3
      rw [ofM_ok _ _ _ _ h1, assign_bind]
      rw [ih { p with storage := ⟨p.storage.data ++ [x], c⟩ } h2 h3 (by simp only [List.length_append, List.length_cons, List.length_nil] at h ⊢; omega)]
      simp
    by_cases hr : p.storage.data.length + 1 ≤ p.storage.cap
    · exact key _ (push_room T std _ x hr) ⟨by simp; omega, hg.room, hg.max⟩ hp
    · have hl : p.storage.data.length = p.storage.cap := by have := hg.fits; omega
      rcases push_full T std _ x hg hl with ⟨c, h1, h2, h3, h4, h5⟩ | ⟨h1, h2⟩
      · refine key c h1 h2 ?_
        obtain ⟨k, hk⟩ := hp
        refine ⟨k + 1, ?_⟩
        show c = _
        have := hg.room
        rw [h5, Nat.pow_succ, ← hk]
        simp only [std]
        omega
      · have h3 := pow_limit T _ hg hp
        have h4 := isizeMax_eq T
        have h5 : p.storage.data.length = limit T := by omega
        rw [bind_err _ _ p p .capacity (by rw [ofM, h1])]
        rw [List.take_left' h5, show limit T = p.storage.cap by omega]

theorem unpad_write_erase (T : Target) (G : Policy) (buf : List U8) (p p' : Growing.Unpad) (o : Option VecU8)
    (h : p.write T G buf = .ok (p', o)) : Unpad.write T G buf p = (.ok o, p') := by
  unfold Growing.Unpad.write at h
  change (pushAll T G p.storage buf >>= _) = _ at h
  cases h1 : pushAll T G p.storage buf with
  | error e => rw [h1] at h; cases h
  | ok v =>
    rw [h1, ok_bind] at h
    unfold Unpad.write
    rw [bind_ok _ _ _ _ _ (unpad_pushes_ok T G buf p v h1), self_bind]
    dsimp only at h ⊢
    by_cases hl : v.data.length ≤ p.block_size
    · rw [if_pos hl] at h ⊢
      cases h; rfl
    · rw [if_neg hl] at h ⊢
      cases h2 : T.rem v.data.length p.block_size with
      | error e => rw [h2] at h; cases h
      | ok tl =>
        rw [h2, ok_bind] at h
        rw [ofM_ok _ _ _ _ rfl]
        cases h3 : T.sub v.data.length (if tl = 0 then p.block_size else tl) with
        | error e => rw [h3] at h; cases h
        | ok tp =>
          rw [h3, ok_bind] at h
          rw [ofM_ok _ _ _ _ rfl]
          cases h4 : v.splitOff T tp with
          | error e => rw [h4] at h; cases h
          | ok q =>
            obtain ⟨v1, v2⟩ := q
            rw [h4, ok_bind] at h
            rw [ofM_ok _ _ _ _ rfl, assign_bind]
            dsimp only at h ⊢
            cases h5 : VecU8.ofSlice T v1.data with
            | error e => rw [h5] at h; cases h
            | ok hd =>
              rw [h5, ok_bind] at h
              rw [ofM_ok _ _ _ _ rfl, assign_bind]
              cases h6 : v1.clear.append T G v2 with
              | error e => rw [h6] at h; cases h
              | ok w =>
                rw [h6, ok_bind] at h
                rw [ofM_ok _ _ _ _ rfl, assign_bind]
                cases h; rfl

theorem dec_writeLoop_erase (T : Target) (G : Policy) (bs : List (List U8)) (w : VecU8) (d d' : Growing.Decipher) (r : Except DecipherError VecU8)
    (h : Growing.Decipher.writeLoop T G bs d w = .ok (d', r)) : Decipher.writeLoop T G bs w d = (.ok r, d') := by
  induction bs generalizing d w with
  | nil => cases h; rfl
  | cons b bs ih =>
    unfold Growing.Decipher.writeLoop at h
    rw [Decipher.writeLoop, self_bind]
    cases h1 : arrayFromSlice BLOCK_SIZE b with
    | error e => rw [h1] at h; cases h
    | ok block =>
      rw [h1, ok_bind] at h
      rw [ofM_ok _ _ _ _ rfl]
      cases h2 : d.aes.decrypt block with
      | error e => rw [h2] at h; cases h
      | ok res =>
        rw [h2, ok_bind] at h
        rw [ofM_ok _ _ _ _ rfl]
        cases res with
        | error e => cases h; rfl
        | ok clear =>
          dsimp only at h ⊢
          rw [assign_bind]
          cases h3 : VecU8.ofSlice T (xorBlock clear d.iv).toList with
          | error e => rw [h3] at h; cases h
          | ok v =>
            rw [h3, ok_bind] at h
            rw [ofM_ok _ _ _ _ rfl]
            cases h4 : w.append T G v with
            | error e => rw [h4] at h; cases h
            | ok w' =>
              rw [h4, ok_bind] at h
              rw [ofM_ok _ _ _ _ rfl]
              exact ih w' _ h

end Verif.Growing.Caught
