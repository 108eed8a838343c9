import Verif.Props.GrowingRun
import Verif.Proof.CbcMachine
import Verif.Spec.CbcLimit

/-! Vectors with a capacity (`Model/Growing.lean`) against vectors without one. -/

namespace Verif.Growing
open Verif Verif.Aes Verif.Pkcs7 Verif.AesCbc Spec.Cbc

/-- A quarter of the address space. -/
def limit (T : Target) : Nat := 2 ^ (T.bits - 2)

theorem isizeMax_eq (T : Target) : T.isizeMax + 1 = 2 * limit T := by
  rcases T with ⟨_ | _, _⟩ <;> (simp only [Target.isizeMax, limit, Target.bits]; decide)

theorem limit_large (T : Target) : 1024 ≤ limit T := by
  rcases T with ⟨_ | _, _⟩ <;> (simp only [limit, Target.bits]; decide)

/-- A vector with room for two blocks. -/
structure Good (T : Target) (v : VecU8) : Prop where
  fits : v.data.length ≤ v.cap
  room : 32 ≤ v.cap
  max : v.cap ≤ T.isizeMax

/-- All of `b`, byte by byte. -/
def pushAll (T : Target) (G : Policy) (v : VecU8) (b : List U8) : M VecU8 := forEach b v fun elem storage => storage.push T G elem

theorem push_room (T : Target) (G : Policy) (v : VecU8) (x : U8) (h : v.data.length + 1 ≤ v.cap) :
    v.push T G x = .ok ⟨v.data ++ [x], v.cap⟩ := by
  rw [VecU8.push, VecU8.reserve, if_pos h]; rfl

theorem pushAll_room (T : Target) (G : Policy) (b : List U8) (v : VecU8) (h : v.data.length + b.length ≤ v.cap) :
    pushAll T G v b = .ok ⟨v.data ++ b, v.cap⟩ := by
  induction b generalizing v with
  | nil => simp [pushAll]
  | cons x b ih =>
    rw [List.length_cons] at h
    rw [pushAll, forEach_cons, push_room _ _ _ _ (by omega), ok_bind]
    show pushAll T G _ b = _
    rw [ih _ (by simp; omega)]
    simp

theorem append_room (T : Target) (G : Policy) (v w : VecU8) (h : v.data.length + w.data.length ≤ v.cap) :
    v.append T G w = .ok ⟨v.data ++ w.data, v.cap⟩ := by
  rw [VecU8.append, VecU8.reserve, if_pos h]; rfl

theorem ofSlice_ok (T : Target) (xs : List U8) (h : xs.length ≤ T.isizeMax) : VecU8.ofSlice T xs = .ok ⟨xs, xs.length⟩ := by
  rw [VecU8.ofSlice, T.reserve_ok (by omega)]; rfl

theorem withCapacity_ok (T : Target) (n : Nat) (h : n ≤ T.isizeMax) : VecU8.withCapacity T n = .ok ⟨[], n⟩ := by
  rw [VecU8.withCapacity, T.reserve_ok (by omega)]; rfl

theorem push_full (T : Target) (G : Policy) (v : VecU8) (x : U8) (hg : Good T v) (h : v.data.length = v.cap) :
    (∃ c, v.push T G x = .ok ⟨v.data ++ [x], c⟩ ∧ Good T ⟨v.data ++ [x], c⟩ ∧ v.cap ≤ c ∧ c ≤ 2 * v.cap ∧ c = G.grow v.cap (v.cap + 1)) ∨
      v.push T G x = .error .capacity ∧ T.isizeMax < 2 * v.cap := by
  have h1 := G.enough v.cap (v.cap + 1)
  have h2 := G.atMost v.cap (v.cap + 1)
  have := hg.room
  rw [VecU8.push, VecU8.reserve, if_neg (by omega), h]
  by_cases hm : G.grow v.cap (v.cap + 1) ≤ T.isizeMax
  · left
    rw [T.reserve_ok (by omega)]
    exact ⟨G.grow v.cap (v.cap + 1), rfl, ⟨by simp; omega, by simp; omega, hm⟩, by omega, by omega, rfl⟩
  · right
    rw [Target.reserve, if_neg (by omega)]
    exact ⟨rfl, by omega⟩

theorem pushAll_spec (T : Target) (G : Policy) (b : List U8) (v : VecU8) (hg : Good T v) :
    (∃ c, pushAll T G v b = .ok ⟨v.data ++ b, c⟩ ∧ Good T ⟨v.data ++ b, c⟩ ∧ v.cap ≤ c ∧
        (c = v.cap ∨ c ≤ 2 * (v.data.length + b.length))) ∨
      pushAll T G v b = .error .capacity ∧ limit T < v.data.length + b.length := by
  induction b generalizing v with
  | nil => left; exact ⟨v.cap, by simp [pushAll], by simpa using hg, Nat.le_refl _, .inl rfl⟩
  | cons x b ih =>
    have hp : pushAll T G v (x :: b) = (v.push T G x >>= fun v => pushAll T G v b) := by
      rw [pushAll, forEach_cons]; rfl
    rw [hp]
    have key : ∀ c, v.push T G x = .ok ⟨v.data ++ [x], c⟩ → Good T ⟨v.data ++ [x], c⟩ → v.cap ≤ c → (c = v.cap ∨ c ≤ 2 * v.data.length) →
        (∃ c, (v.push T G x >>= fun v => pushAll T G v b) = .ok ⟨v.data ++ x :: b, c⟩ ∧ Good T ⟨v.data ++ x :: b, c⟩ ∧ v.cap ≤ c ∧
          (c = v.cap ∨ c ≤ 2 * (v.data.length + (x :: b).length))) ∨
        (v.push T G x >>= fun v => pushAll T G v b) = .error .capacity ∧ limit T < v.data.length + (x :: b).length := by
      intro c h1 h2 h3 h4
      rw [h1, ok_bind]
      have e : ((v.data ++ [x]) ++ b) = v.data ++ x :: b := by simp
      rcases ih ⟨v.data ++ [x], c⟩ h2 with ⟨c', i1, i2, i3, i4⟩ | ⟨i1, i2⟩
      · left
        rw [e] at i1 i2
        refine ⟨c', i1, i2, Nat.le_trans h3 i3, ?_⟩
        simp only [List.length_append, List.length_cons, List.length_nil] at i4 ⊢
        omega
      · right
        refine ⟨i1, ?_⟩
        simp only [List.length_append, List.length_cons, List.length_nil] at i2 ⊢
        omega
    by_cases hr : v.data.length + 1 ≤ v.cap
    · exact key v.cap (push_room T G v x hr) ⟨by simp; omega, hg.room, hg.max⟩ (Nat.le_refl _) (.inl rfl)
    · have hl : v.data.length = v.cap := by have := hg.fits; omega
      rcases push_full T G v x hg hl with ⟨c, h1, h2, h3, h4, _⟩ | ⟨h1, h2⟩
      · exact key c h1 h2 h3 (.inr (by omega))
      · right
        rw [h1]
        refine ⟨rfl, ?_⟩
        have := isizeMax_eq T
        rw [List.length_cons]
        omega

/-! ### The standard policy -/

/-- The capacity is a power of two. -/
def Pow (v : VecU8) : Prop := ∃ k, v.cap = 2 ^ k

theorem pow_limit (T : Target) (v : VecU8) (hg : Good T v) (hp : Pow v) : v.cap ≤ limit T := by
  obtain ⟨k, hk⟩ := hp
  have h1 := hg.max
  have h2 := isizeMax_eq T
  rw [hk] at *
  have h3 : 2 ^ k < 2 ^ (T.bits - 2 + 1) := by
    rw [Nat.pow_succ]
    show 2 ^ k < limit T * 2
    omega
  exact Nat.pow_le_pow_right (by decide) (Nat.le_of_lt_succ ((Nat.pow_lt_pow_iff_right (by decide)).1 h3))

theorem pushAll_pow (T : Target) (b : List U8) (v w : VecU8) (hg : Good T v) (hp : Pow v) (h : pushAll T std v b = .ok w) : Pow w := by
  induction b generalizing v with
  | nil => cases h; exact hp
  | cons x b ih =>
    have h' : (v.push T std x >>= fun v => pushAll T std v b) = .ok w := by
      rw [← h, pushAll, forEach_cons]; rfl
    by_cases hr : v.data.length + 1 ≤ v.cap
    · rw [push_room T std v x hr, ok_bind] at h'
      exact ih ⟨v.data ++ [x], v.cap⟩ ⟨by simp; omega, hg.room, hg.max⟩ hp h'
    · have hl : v.data.length = v.cap := by have := hg.fits; omega
      rcases push_full T std v x hg hl with ⟨c, h1, h2, h3, h4, h5⟩ | ⟨h1, h2⟩
      · rw [h1, ok_bind] at h'
        refine ih _ h2 ?_ h'
        obtain ⟨k, hk⟩ := hp
        refine ⟨k + 1, ?_⟩
        show c = _
        have := hg.room
        rw [h5, Nat.pow_succ, ← hk]
        simp only [std]
        omega
      · rw [h1] at h'; cases h'

/-- With the standard policy the outcome depends on the size only. -/
theorem pushAll_std (T : Target) (b : List U8) (v : VecU8) (hg : Good T v) (hp : Pow v) (h : limit T < v.data.length + b.length) :
    pushAll T std v b = .error .capacity := by
  rcases pushAll_spec T std b v hg with ⟨c, h1, h2, _, _⟩ | ⟨h1, _⟩
  · have h3 : c ≤ limit T := pow_limit T _ h2 (pushAll_pow T b v _ hg hp h1)
    have h4 : (v.data ++ b).length ≤ c := h2.fits
    rw [List.length_append] at h4
    omega
  · exact h1

/-! ### `Pad` and `Unpad` -/

theorem rest_pad (T : Target) (G : Policy) (s : List U8) (c : Nat) (b : List U8) (p : Pkcs7.Pad) (o : Option (List U8)) (v : VecU8)
    (hp : pushAll T G v b = .ok ⟨s ++ b, c⟩) (hg : Good T ⟨s ++ b, c⟩)
    (h : Pkcs7.Pad.write T ⟨16, s⟩ b = .ok (p, o)) :
    ∃ o', Pad.write T G ⟨16, v⟩ b = .ok (⟨16, ⟨p.storage, c⟩⟩, o') ∧ o'.map (·.data) = o := by
  have hc : (s ++ b).length ≤ c := hg.fits
  have hr : 32 ≤ c := hg.room
  have hm : c ≤ T.isizeMax := hg.max
  unfold Pad.write
  rw [show (forEach b v fun elem storage => storage.push T G elem) = .ok ⟨s ++ b, c⟩ from hp, ok_bind]
  unfold Pkcs7.Pad.write at h
  dsimp only at h ⊢
  by_cases hl : (s ++ b).length < 16
  · rw [if_pos hl] at h ⊢
    cases h
    exact ⟨none, rfl, rfl⟩
  · rw [if_neg hl] at h ⊢
    have h16 : T.rem (s ++ b).length 16 = .ok ((s ++ b).length % 16) := rfl
    have hs : T.sub (s ++ b).length ((s ++ b).length % 16) = .ok ((s ++ b).length - (s ++ b).length % 16) := T.sub_ok (Nat.mod_le _ _)
    simp only [h16, ok_bind, hs] at h ⊢
    cases h
    have ht : ((s ++ b).drop ((s ++ b).length - (s ++ b).length % 16)).length < 16 := by rw [List.length_drop]; omega
    rw [VecU8.splitOff, if_pos (by simp only []; omega), ofSlice_ok _ _ (by dsimp only; omega)]
    simp only [ok_bind, pure, Except.pure]
    rw [ofSlice_ok _ _ (by rw [List.length_take]; omega)]
    simp only [ok_bind]
    rw [append_room _ _ _ _ (by simp only [VecU8.clear, List.length_nil]; omega)]
    exact ⟨_, rfl, rfl⟩

theorem rest_unpad (T : Target) (G : Policy) (s : List U8) (c : Nat) (b : List U8) (p : Pkcs7.Unpad) (o : Option (List U8)) (v : VecU8)
    (hp : pushAll T G v b = .ok ⟨s ++ b, c⟩) (hg : Good T ⟨s ++ b, c⟩)
    (h : Pkcs7.Unpad.write T ⟨16, s⟩ b = .ok (p, o)) :
    ∃ o', Unpad.write T G ⟨16, v⟩ b = .ok (⟨16, ⟨p.storage, c⟩⟩, o') ∧ o'.map (·.data) = o := by
  have hc : (s ++ b).length ≤ c := hg.fits
  have hr : 32 ≤ c := hg.room
  have hm : c ≤ T.isizeMax := hg.max
  unfold Unpad.write
  rw [show (forEach b v fun elem storage => storage.push T G elem) = .ok ⟨s ++ b, c⟩ from hp, ok_bind]
  unfold Pkcs7.Unpad.write at h
  dsimp only at h ⊢
  by_cases hl : (s ++ b).length ≤ 16
  · rw [if_pos hl] at h ⊢
    cases h
    exact ⟨none, rfl, rfl⟩
  · rw [if_neg hl] at h ⊢
    have h16 : T.rem (s ++ b).length 16 = .ok ((s ++ b).length % 16) := rfl
    simp only [h16, ok_bind] at h ⊢
    generalize hn : (if (s ++ b).length % 16 = 0 then 16 else (s ++ b).length % 16) = n at h ⊢
    have hn16 : n ≤ 16 := by split at hn <;> omega
    have hs : T.sub (s ++ b).length n = .ok ((s ++ b).length - n) := T.sub_ok (by omega)
    simp only [ok_bind, hs] at h ⊢
    cases h
    have ht : ((s ++ b).drop ((s ++ b).length - n)).length ≤ 16 := by rw [List.length_drop]; omega
    rw [VecU8.splitOff, if_pos (by simp only []; omega), ofSlice_ok _ _ (by dsimp only; omega)]
    simp only [ok_bind, pure, Except.pure]
    rw [ofSlice_ok _ _ (by rw [List.length_take]; omega)]
    simp only [ok_bind]
    rw [append_room _ _ _ _ (by simp only [VecU8.clear, List.length_nil]; omega)]
    exact ⟨_, rfl, rfl⟩

theorem pad_flush_grow (T : Target) (G : Policy) (v : VecU8) (hg : Good T v) (hl : v.data.length < 16) :
    Pad.flush T G ⟨16, v⟩ =
      .ok (⟨16, ⟨[], v.cap⟩⟩, ⟨v.data ++ List.replicate (16 - v.data.length) (BitVec.ofNat 8 (16 - v.data.length)), 16⟩) := by
  have := hg.room
  have := hg.max
  unfold Pad.flush
  dsimp only
  rw [T.sub_ok (by omega), ok_bind]
  have hlen : (List.replicate (16 - v.data.length) (BitVec.ofNat 8 (16 - v.data.length))).length = 16 - v.data.length := by simp
  have := pushAll_room T G (List.replicate (16 - v.data.length) (BitVec.ofNat 8 (16 - v.data.length))) v (by omega)
  rw [pushAll] at this
  have h16 : (v.data ++ List.replicate (16 - v.data.length) (BitVec.ofNat 8 (16 - v.data.length))).length = 16 := by
    rw [List.length_append, hlen]; omega
  rw [this, ok_bind, ofSlice_ok _ _ (by dsimp only; omega), h16]
  rfl

theorem unpad_flush_grow (T : Target) (v : VecU8) (hg : Good T v) (p : Pkcs7.Unpad) (r : Except UnpadError (List U8))
    (h : Pkcs7.Unpad.flush T ⟨16, v.data⟩ = .ok (p, r)) :
    ∃ r', Unpad.flush T ⟨16, v⟩ = .ok (⟨16, ⟨p.storage, v.cap⟩⟩, r') ∧ r'.map (·.data) = r := by
  have h1 := hg.room
  have h2 := hg.max
  have h3 := hg.fits
  unfold Unpad.flush
  unfold Pkcs7.Unpad.flush at h
  dsimp only at h ⊢
  by_cases c1 : v.data.length ≠ 16
  · rw [if_pos c1] at h ⊢; cases h; exact ⟨_, rfl, rfl⟩
  rw [if_neg c1] at h ⊢
  cases e1 : T.sub v.data.length 1 with
  | error e => rw [e1] at h; cases h
  | ok i =>
  rw [e1, ok_bind] at h
  rw [ok_bind]
  cases e2 : idx v.data i with
  | error e => rw [e2] at h; cases h
  | ok len =>
  rw [e2, ok_bind] at h
  rw [ok_bind]
  by_cases c2 : len > BitVec.ofNat 8 16
  · rw [if_pos c2] at h ⊢; cases h; exact ⟨_, rfl, rfl⟩
  rw [if_neg c2] at h ⊢
  cases e3 : T.sub 16 len.toNat with
  | error e => rw [e3] at h; cases h
  | ok off =>
  rw [e3, ok_bind] at h
  rw [ok_bind]
  cases e4 : sliceFrom v.data off with
  | error e => rw [e4] at h; cases h
  | ok sl =>
  rw [e4, ok_bind] at h
  rw [ok_bind]
  by_cases c3 : sl.foldl (fun is_same b => is_same ||| (len ^^^ b)) (0 : U8) ≠ 0
  · rw [if_pos c3] at h ⊢; cases h; exact ⟨_, rfl, rfl⟩
  rw [if_neg c3] at h ⊢
  cases e5 : slice v.data 0 off with
  | error e => rw [e5] at h; cases h
  | ok res =>
  rw [e5, ok_bind] at h
  rw [ok_bind]
  cases h
  have hres : res.length ≤ v.data.length := by
    unfold slice at e5
    split at e5
    · cases e5; simp; omega
    · cases e5
  rw [ofSlice_ok _ _ (by omega)]
  exact ⟨_, rfl, rfl⟩

/-! ### `Cipher` -/

theorem encrypt_block_grow (T : Target) (c : Cipher) (c0 c0' : AesCbc.Cipher) (b : List U8) (r : Except AESError (List U8))
    (ha : c.aes = c0.aes) (hi : c.iv = c0.iv) (h : c0.encrypt_block b = .ok (c0', r)) :
    ∃ r', c.encrypt_block T b = .ok (⟨c0'.aes, c.pad, c0'.iv⟩, r') ∧ r'.map (·.data) = r ∧ ∀ v, r' = .ok v → v.data.length = 16 := by
  unfold Cipher.encrypt_block
  unfold AesCbc.Cipher.encrypt_block at h
  rw [ha, hi]
  cases e1 : arrayFromSlice BLOCK_SIZE b with
  | error e => rw [e1] at h; cases h
  | ok block =>
  rw [e1, ok_bind] at h
  rw [ok_bind]
  dsimp only at h ⊢
  cases e2 : c0.aes.encrypt (xorBlock block c0.iv) with
  | error e => rw [e2] at h; cases h
  | ok r2 =>
  rw [e2, ok_bind] at h
  rw [ok_bind]
  cases r2 with
  | error e => cases h; exact ⟨_, by rw [← ha, ← hi]; rfl, rfl, by intro v hv; cases hv⟩
  | ok iv =>
    dsimp only at h ⊢
    cases h
    have := isizeMax_eq T
    have := limit_large T
    rw [ofSlice_ok _ _ (by simp; omega)]
    exact ⟨.ok ⟨iv.toList, iv.toList.length⟩, by rw [← ha]; rfl, rfl, by intro v hv; cases hv; simp⟩

theorem cipher_loop_grow (T : Target) (G : Policy) (bs : List (List U8)) (c : Cipher) (c0 c0' : AesCbc.Cipher) (w : VecU8)
    (r : Except AESError (List U8)) (ha : c.aes = c0.aes) (hi : c.iv = c0.iv) (hw : w.data.length + 16 * bs.length ≤ w.cap)
    (h : AesCbc.Cipher.writeLoop bs c0 w.data = .ok (c0', r)) :
    ∃ r', Cipher.writeLoop T G bs c w = .ok (⟨c0'.aes, c.pad, c0'.iv⟩, r') ∧ r'.map (·.data) = r := by
  induction bs generalizing c c0 w with
  | nil => cases h; exact ⟨.ok w, by rw [← ha, ← hi]; rfl, rfl⟩
  | cons b bs ih =>
    unfold AesCbc.Cipher.writeLoop at h
    unfold Cipher.writeLoop
    cases e1 : c0.encrypt_block b with
    | error e => rw [e1] at h; cases h
    | ok q =>
    obtain ⟨c1, r1⟩ := q
    obtain ⟨r2, i1, i2, i3⟩ := encrypt_block_grow T c c0 c1 b r1 ha hi e1
    rw [e1, ok_bind] at h
    rw [i1, ok_bind]
    cases r2 with
    | error e => cases i2; cases h; exact ⟨_, rfl, rfl⟩
    | ok v =>
      cases i2
      have := i3 v rfl
      dsimp only at h ⊢
      rw [List.length_cons] at hw
      rw [append_room _ _ _ _ (by omega), ok_bind]
      exact ih _ c1 ⟨w.data ++ v.data, w.cap⟩ rfl rfl (by simp; omega) h

/-- The same instance, with and without capacity. -/
structure CRel (T : Target) (c : Cipher) (c0 : AesCbc.Cipher) : Prop where
  aes : c.aes = c0.aes
  iv : c.iv = c0.iv
  size : c.pad.block_size = 16
  pad : c0.pad = ⟨16, c.pad.storage.data⟩
  good : Good T c.pad.storage

theorem blocks_len (s : List U8) (bs : List (List U8)) (n : Nat) (hn : s.length = 16 * n) (h : chunks s BLOCK_SIZE = .ok bs) :
    16 * bs.length = s.length := by
  have hc : padCut 16 s.length = s.length := by rw [padCut]; omega
  have := chunks_ok s
  rw [hc, List.take_length, h] at this
  cases this
  rw [blocks_length]; omega

theorem loop_pad (bs : List (List U8)) (c1 c2 : AesCbc.Cipher) (w : List U8) (r : Except AESError (List U8))
    (h : AesCbc.Cipher.writeLoop bs c1 w = .ok (c2, r)) : c2.pad = c1.pad := by
  induction bs generalizing c1 w with
  | nil => cases h; rfl
  | cons b bs ih =>
    unfold AesCbc.Cipher.writeLoop at h
    cases e1 : c1.encrypt_block b with
    | error e => rw [e1] at h; cases h
    | ok q =>
    obtain ⟨c3, r1⟩ := q
    have hp3 : c3.pad = c1.pad := by
      unfold AesCbc.Cipher.encrypt_block at e1
      cases e2 : arrayFromSlice BLOCK_SIZE b with
      | error e => rw [e2] at e1; cases e1
      | ok block =>
      rw [e2, ok_bind] at e1
      dsimp only at e1
      cases e3 : c1.aes.encrypt (xorBlock block c1.iv) with
      | error e => rw [e3] at e1; cases e1
      | ok r2 =>
      rw [e3, ok_bind] at e1
      cases r2 <;> (cases e1; rfl)
    rw [e1, ok_bind] at h
    cases r1 with
    | error e => cases h; exact hp3
    | ok d => exact (ih _ _ h).trans hp3

theorem cipher_write_grow (T : Target) (G : Policy) (c : Cipher) (c0 c0' : AesCbc.Cipher) (b : List U8) (r : Except AESError (List U8)) (cap : Nat)
    (hr : CRel T c c0) (hp : pushAll T G c.pad.storage b = .ok ⟨c.pad.storage.data ++ b, cap⟩) (hg : Good T ⟨c.pad.storage.data ++ b, cap⟩)
    (h : c0.write T b = .ok (c0', r)) :
    ∃ r', c.write T G b = .ok (⟨c0'.aes, ⟨16, ⟨c0'.pad.storage, cap⟩⟩, c0'.iv⟩, r') ∧ r'.map (·.data) = r := by
  obtain ⟨ha, hi, hs, hpad, hgood⟩ := hr
  obtain ⟨aes, ⟨bsz, v⟩, iv⟩ := c
  dsimp only at ha hi hs hpad hp hg hgood
  subst hs
  obtain ⟨o, h1, h2, h3⟩ := pad_write T 16 (by decide) v.data b
  obtain ⟨o', h4, h5⟩ := rest_pad T G v.data cap b _ o v hp hg h1
  unfold AesCbc.Cipher.write at h
  unfold Cipher.write
  rw [hpad, h1, ok_bind] at h
  dsimp only at h ⊢
  rw [h4, ok_bind]
  cases o' with
  | none => cases h5; cases h; exact ⟨_, by rw [← ha, ← hi]; rfl, rfl⟩
  | some head =>
    cases h5
    rw [Option.map_some] at h
    dsimp only at h ⊢
    have hcap := hg.max
    have hfit := hg.fits
    dsimp only at hcap hfit
    have hhd : head.data.length = 16 * ((v.data ++ b).length / 16) := by
      have : head.data = (v.data ++ b).take (padCut 16 (v.data ++ b).length) := h2
      rw [this, List.length_take, padCut]; omega
    rw [withCapacity_ok _ _ (by omega), ok_bind]
    cases e1 : chunks head.data BLOCK_SIZE with
    | error e => rw [e1] at h; cases h
    | ok bs =>
    rw [e1, ok_bind] at h
    rw [ok_bind]
    have hb := blocks_len _ bs _ hhd e1
    obtain ⟨r', j1, j2⟩ := cipher_loop_grow T G bs ⟨aes, ⟨16, ⟨(v.data ++ b).drop (padCut 16 (v.data ++ b).length), cap⟩⟩, iv⟩
      { c0 with pad := ⟨16, (v.data ++ b).drop (padCut 16 (v.data ++ b).length)⟩ } c0' ⟨[], head.data.length⟩ r
      ha hi (by simp; omega) h
    refine ⟨r', ?_, j2⟩
    have hpp : c0'.pad.storage = (v.data ++ b).drop (padCut 16 (v.data ++ b).length) := by
      rw [loop_pad _ _ _ _ _ h]
    rw [hpp]
    exact j1

theorem cipher_flush_grow (T : Target) (G : Policy) (c : Cipher) (c0 c0' : AesCbc.Cipher) (r : Except AESError (List U8))
    (hr : CRel T c c0) (hl : c.pad.storage.data.length < 16) (h : c0.flush T = .ok (c0', r)) :
    ∃ r', c.flush T G = .ok (⟨c0'.aes, ⟨16, ⟨[], c.pad.storage.cap⟩⟩, c0'.iv⟩, r') ∧ r'.map (·.data) = r := by
  obtain ⟨ha, hi, hs, hpad, hgood⟩ := hr
  obtain ⟨aes, ⟨bsz, v⟩, iv⟩ := c
  dsimp only at ha hi hs hpad hgood hl ⊢
  subst hs
  unfold AesCbc.Cipher.flush at h
  unfold Cipher.flush
  rw [hpad, Pkcs7.pad_flush _ _ _ (by omega), ok_bind] at h
  dsimp only at h ⊢
  rw [pad_flush_grow T G v hgood hl, ok_bind]
  obtain ⟨r', i1, i2, _⟩ := encrypt_block_grow T ⟨aes, ⟨16, ⟨[], v.cap⟩⟩, iv⟩ { c0 with pad := ⟨16, []⟩ } c0' _ r ha hi h
  exact ⟨r', i1, i2⟩

/-- The instance is in the abstract state. -/
def CInv (T : Target) (c : Cipher) (e : Enc) : Prop := ∃ c0, CRel T c c0 ∧ CMatches c0 e

theorem cnew_inv (T : Target) (iv : Vector U8 16) :
    ∃ c, Cipher.new T iv = .ok c ∧ CInv T c ⟨none, iv.toList, []⟩ ∧ c.pad.storage.cap = 32 := by
  have h1 := isizeMax_eq T
  have h2 := limit_large T
  refine ⟨⟨AES.new, ⟨16, ⟨[], 32⟩⟩, iv⟩, ?_, ⟨AesCbc.Cipher.new iv, ⟨rfl, rfl, rfl, rfl, by simp, Nat.le_refl _, ?_⟩, rfl, rfl, rfl, by simp⟩, rfl⟩
  · rw [Cipher.new, Pad.new, withCapacity_ok _ _ (by show 2 * 16 ≤ _; omega)]
    rfl
  · dsimp only; omega

/-- What a call can do to a capacity. -/
def Grown (cap cap' n : Nat) : Prop := cap ≤ cap' ∧ n ≤ cap' ∧ (cap' = cap ∨ cap' ≤ 2 * n)

theorem cstep_grow (T : Target) (G : Policy) (c : Cipher) (e : Enc) (h : CInv T c e) (x : Call) :
    (∃ c' r, cstep T G c x = .ok (c', r) ∧ CInv T c' (e.step x).1 ∧ r.mapError errA = (e.step x).2 ∧
      (match x with
        | .write b => Grown c.pad.storage.cap c'.pad.storage.cap (e.pending.length + b.length)
        | _ => c'.pad.storage.cap = c.pad.storage.cap) ∧
      (G = std → Pow c.pad.storage → Pow c'.pad.storage)) ∨
    (cstep T G c x = .error .capacity ∧ ∃ b, x = .write b ∧ limit T < e.pending.length + b.length) := by
  obtain ⟨c0, hr, hm⟩ := h
  obtain ⟨c0', r0, s1, s2, s3⟩ := cstep_spec T c0 e hm x
  have hpend : c.pad.storage.data = e.pending := by
    have h1 := hr.pad
    rw [hm.2.2.1] at h1
    injection h1 with _ h2; exact h2.symm
  cases x with
  | init key =>
    left
    rw [AesCbc.cstep, AesCbc.Cipher.init] at s1
    rw [cstep, Cipher.init, hr.aes]
    cases e1 : c0.aes.init T key with
    | error e => rw [e1] at s1; cases s1
    | ok q =>
    obtain ⟨a, res⟩ := q
    rw [e1, ok_bind] at s1
    cases res with
    | error er => cases s1; exact ⟨{ c with aes := a }, _, rfl, ⟨{ c0 with aes := a }, ⟨rfl, hr.iv, hr.size, hr.pad, hr.good⟩, s2⟩, s3, rfl, fun _ h => h⟩
    | ok u => cases s1; exact ⟨{ c with aes := a }, _, rfl, ⟨{ c0 with aes := a }, ⟨rfl, hr.iv, hr.size, hr.pad, hr.good⟩, s2⟩, s3, rfl, fun _ h => h⟩
  | write b =>
    rcases pushAll_spec T G b c.pad.storage hr.good with ⟨cap, h1, h2, h3, h4⟩ | ⟨h1, h2⟩
    · left
      obtain ⟨r', w1, w2⟩ := cipher_write_grow T G c c0 c0' b r0 cap hr h1 h2 s1
      have hfit : (c.pad.storage.data ++ b).length ≤ cap := h2.fits
      rw [List.length_append, hpend] at hfit
      have h32 : 32 ≤ cap := h2.room
      have hlen : c0'.pad.storage.length < 16 := by
        rw [s2.2.2.1]; exact s2.2.2.2
      refine ⟨⟨c0'.aes, ⟨16, ⟨c0'.pad.storage, cap⟩⟩, c0'.iv⟩, r0, ?_, ⟨c0', ⟨rfl, rfl, rfl, ?_, ⟨?_, h32, h2.max⟩⟩, s2⟩, s3, ?_, ?_⟩
      · rw [cstep, w1, ok_bind]; dsimp only; rw [w2]; rfl
      · have := s2.2.2.1
        rw [this]
      · show c0'.pad.storage.length ≤ cap
        omega
      · rw [hpend] at h4
        exact ⟨h3, hfit, h4⟩
      · intro hG hp
        subst hG
        obtain ⟨k, hk⟩ := pushAll_pow T b _ _ hr.good hp h1
        exact ⟨k, hk⟩
    · right
      rw [hpend] at h2
      refine ⟨?_, b, rfl, h2⟩
      rw [cstep, Cipher.write, Pad.write]
      rw [show (forEach b c.pad.storage fun elem storage => storage.push T G elem) = .error .capacity from h1]
      rfl
  | flush =>
    left
    obtain ⟨r', w1, w2⟩ := cipher_flush_grow T G c c0 c0' r0 hr (by rw [hpend]; exact hm.2.2.2) s1
    have hnil : c0'.pad = ⟨16, []⟩ := by
      have : (e.step .flush).1.pending = [] := by
        rw [Enc.step]; cases e.key <;> rfl
      rw [s2.2.2.1, this]
    refine ⟨⟨c0'.aes, ⟨16, ⟨[], c.pad.storage.cap⟩⟩, c0'.iv⟩, r0, ?_, ⟨c0', ⟨rfl, rfl, rfl, hnil, ⟨by simp, hr.good.room, hr.good.max⟩⟩, s2⟩, s3, rfl, fun _ h => h⟩
    rw [cstep, w1, ok_bind]; dsimp only; rw [w2]; rfl

theorem cstep_std (T : Target) (c : Cipher) (e : Enc) (h : CInv T c e) (hp : Pow c.pad.storage) (b : List U8)
    (hb : limit T < e.pending.length + b.length) : cstep T std c (.write b) = .error .capacity := by
  obtain ⟨c0, hr, hm⟩ := h
  have hpend : c.pad.storage.data = e.pending := by
    have h1 := hr.pad
    rw [hm.2.2.1] at h1
    injection h1 with _ h2; exact h2.symm
  have h1 := pushAll_std T b c.pad.storage hr.good hp (by rw [hpend]; exact hb)
  rw [cstep, Cipher.write, Pad.write]
  rw [show (forEach b c.pad.storage fun elem storage => storage.push T std elem) = .error .capacity from h1]
  rfl

/-! ### `Decipher` -/

/-- The same instance, with and without capacity. -/
structure DRel (T : Target) (d : Decipher) (d0 : AesCbc.Decipher) : Prop where
  aes : d.aes = d0.aes
  iv : d.iv = d0.iv
  bsize : d.buffer.block_size = 16
  buffer : d0.buffer = ⟨16, d.buffer.storage.data⟩
  bgood : Good T d.buffer.storage
  usize : d.unpad.block_size = 16
  unpad : d0.unpad = ⟨16, d.unpad.storage.data⟩
  ugood : Good T d.unpad.storage

theorem decipher_loop_grow (T : Target) (G : Policy) (bs : List (List U8)) (d : Decipher) (d0 d0' : AesCbc.Decipher) (w : VecU8)
    (r : Except DecipherError (List U8)) (ha : d.aes = d0.aes) (hi : d.iv = d0.iv) (hw : w.data.length + 16 * bs.length ≤ w.cap)
    (h : AesCbc.Decipher.writeLoop bs d0 w.data = .ok (d0', r)) :
    (∃ r', Decipher.writeLoop T G bs d w = .ok (⟨d0'.aes, d.unpad, d0'.iv, d.buffer⟩, r') ∧ r'.map (·.data) = r) ∧
      d0'.unpad = d0.unpad ∧ d0'.buffer = d0.buffer ∧ ∀ out, r = .ok out → out.length = w.data.length + 16 * bs.length := by
  induction bs generalizing d d0 w with
  | nil => cases h; exact ⟨⟨.ok w, by rw [← ha, ← hi]; rfl, rfl⟩, rfl, rfl, by intro out ho; cases ho; simp⟩
  | cons b bs ih =>
    unfold AesCbc.Decipher.writeLoop at h
    unfold Decipher.writeLoop
    rw [ha, hi]
    cases e1 : arrayFromSlice BLOCK_SIZE b with
    | error e => rw [e1] at h; cases h
    | ok block =>
    rw [e1, ok_bind] at h
    rw [ok_bind]
    cases e2 : d0.aes.decrypt block with
    | error e => rw [e2] at h; cases h
    | ok r2 =>
    rw [e2, ok_bind] at h
    rw [ok_bind]
    cases r2 with
    | error e => cases h; exact ⟨⟨_, by rw [← ha, ← hi]; rfl, rfl⟩, rfl, rfl, by intro v hv; cases hv⟩
    | ok clear =>
      dsimp only at h ⊢
      have := isizeMax_eq T
      have := limit_large T
      rw [List.length_cons] at hw
      rw [ofSlice_ok _ _ (by simp; omega), ok_bind, append_room _ _ _ _ (by simp; omega), ok_bind]
      have := ih ⟨d.aes, d.unpad, block, d.buffer⟩ { d0 with iv := block } ⟨w.data ++ (xorBlock clear d0.iv).toList, w.cap⟩ ha rfl (by simp; omega) h
      obtain ⟨i1, i2, i3, i4⟩ := this
      refine ⟨by rw [← ha]; exact i1, i2, i3, fun out ho => ?_⟩
      rw [i4 out ho]
      simp; omega

theorem decipher_write_grow (T : Target) (G : Policy) (d : Decipher) (d0 d0' : AesCbc.Decipher) (b : List U8) (r : Except DecipherError (List U8))
    (cap : Nat) (hr : DRel T d d0) (hp : pushAll T G d.buffer.storage b = .ok ⟨d.buffer.storage.data ++ b, cap⟩)
    (hg : Good T ⟨d.buffer.storage.data ++ b, cap⟩) (h : d0.write T b = .ok (d0', r)) :
    ((((d.buffer.storage.data ++ b).length < 16 ∨ ∃ e, r = .error e) ∧
      ∃ r', d.write T G b = .ok (⟨d0'.aes, d.unpad, d0'.iv, ⟨16, ⟨d0'.buffer.storage, cap⟩⟩⟩, r') ∧ r'.map (·.data) = r ∧ d0'.unpad = d0.unpad)) ∨
    ∃ padded : List U8, padded.length = 16 * ((d.buffer.storage.data ++ b).length / 16) ∧ (∃ out, r = .ok out) ∧
      (∀ cap2, pushAll T G d.unpad.storage padded = .ok ⟨d.unpad.storage.data ++ padded, cap2⟩ → Good T ⟨d.unpad.storage.data ++ padded, cap2⟩ →
        ∃ r', d.write T G b = .ok (⟨d0'.aes, ⟨16, ⟨d0'.unpad.storage, cap2⟩⟩, d0'.iv, ⟨16, ⟨d0'.buffer.storage, cap⟩⟩⟩, r') ∧ r'.map (·.data) = r) ∧
      (pushAll T G d.unpad.storage padded = .error .capacity → d.write T G b = .error .capacity) := by
  obtain ⟨ha, hi, hs, hbuf, hbg, hus, hun, hug⟩ := hr
  obtain ⟨aes, ⟨usz, u⟩, iv, ⟨bsz, v⟩⟩ := d
  dsimp only at ha hi hs hbuf hbg hus hun hug hp hg ⊢
  subst hs hus
  obtain ⟨o, h1, h2, h3⟩ := pad_write T 16 (by decide) v.data b
  obtain ⟨o', h4, h5⟩ := rest_pad T G v.data cap b _ o v hp hg h1
  unfold AesCbc.Decipher.write at h
  unfold Decipher.write
  rw [hbuf, h1, ok_bind] at h
  dsimp only at h ⊢
  rw [h4, ok_bind]
  cases o' with
  | none =>
    left
    rw [← h5] at h3
    cases h5
    cases h
    exact ⟨.inl (h3.1 rfl), .ok ⟨[], 0⟩, by rw [← ha, ← hi]; rfl, rfl, rfl⟩
  | some head =>
    cases h5
    rw [Option.map_some] at h
    dsimp only at h ⊢
    have hcap := hg.max
    have hfit := hg.fits
    dsimp only at hcap hfit
    have hhd : head.data.length = 16 * ((v.data ++ b).length / 16) := by
      have : head.data = (v.data ++ b).take (padCut 16 (v.data ++ b).length) := h2
      rw [this, List.length_take, padCut]; omega
    rw [withCapacity_ok _ _ (by omega), ok_bind]
    cases e1 : chunks head.data BLOCK_SIZE with
    | error e => rw [e1] at h; cases h
    | ok bs =>
    rw [e1, ok_bind] at h
    rw [ok_bind]
    have hb := blocks_len _ bs _ hhd e1
    cases e2 : AesCbc.Decipher.writeLoop bs { d0 with buffer := ⟨16, (v.data ++ b).drop (padCut 16 (v.data ++ b).length)⟩ } [] with
    | error e => rw [e2] at h; cases h
    | ok q =>
    obtain ⟨d1, r1⟩ := q
    obtain ⟨⟨r', j1, j2⟩, j3, j4, j5⟩ := decipher_loop_grow T G bs
      ⟨aes, ⟨16, u⟩, iv, ⟨16, ⟨(v.data ++ b).drop (padCut 16 (v.data ++ b).length), cap⟩⟩⟩
      { d0 with buffer := ⟨16, (v.data ++ b).drop (padCut 16 (v.data ++ b).length)⟩ } d1 ⟨[], head.data.length⟩ r1 ha hi (by simp; omega) e2
    rw [e2, ok_bind] at h
    rw [j1, ok_bind]
    cases r' with
    | error e =>
      left
      cases j2
      cases h
      exact ⟨.inr ⟨_, rfl⟩, _, by rw [j4]; rfl, rfl, j3⟩
    | ok padded =>
      right
      cases j2
      dsimp only at h j3 ⊢
      rw [show Except.map (fun x : VecU8 => x.data) (Except.ok padded : Except DecipherError VecU8) = .ok padded.data from rfl, j3, hun] at h
      dsimp only at h
      obtain ⟨p, k1, k2⟩ := unpad_write T 16 (by decide) u.data padded.data
      rw [k1, ok_bind] at h
      cases h
      refine ⟨padded.data, by rw [j5 _ rfl]; dsimp only [List.length_nil]; omega, ⟨_, rfl⟩, ?_, ?_⟩
      · intro cap2 q1 q2
        obtain ⟨o2, m1, m2⟩ := rest_unpad T G u.data cap2 padded.data _ p u q1 q2 k1
        rw [m1, ok_bind, j4]
        refine ⟨_, rfl, ?_⟩
        subst m2
        cases o2 <;> rfl
      · intro q1
        rw [Unpad.write, show (forEach padded.data u fun elem storage => storage.push T G elem) = .error .capacity from q1]
        rfl

/-- The instance is in the abstract state. -/
def DInv (T : Target) (d : Decipher) (e : Dec) : Prop := ∃ d0, DRel T d d0 ∧ DMatches d0 e

theorem dnew_inv (T : Target) (iv : Vector U8 16) :
    ∃ d, Decipher.new T iv = .ok d ∧ DInv T d ⟨none, iv.toList, [], []⟩ ∧ d.buffer.storage.cap = 32 ∧ d.unpad.storage.cap = 32 := by
  have h1 := isizeMax_eq T
  have h2 := limit_large T
  refine ⟨⟨AES.new, ⟨16, ⟨[], 32⟩⟩, iv, ⟨16, ⟨[], 32⟩⟩⟩, ?_, ⟨AesCbc.Decipher.new iv, ⟨rfl, rfl, rfl, rfl, ⟨by simp, Nat.le_refl _, ?_⟩, rfl, rfl,
    ⟨by simp, Nat.le_refl _, ?_⟩⟩, rfl, rfl, rfl, by simp, rfl, .inl rfl⟩, rfl, rfl⟩
  · rw [Decipher.new, Unpad.new, Pad.new, withCapacity_ok _ _ (by show 2 * 16 ≤ _; omega)]
    rfl
  · dsimp only; omega
  · dsimp only; omega

theorem dec_ok_key (e : Dec) (b : List U8) (r : Except DecipherError (List U8)) (h : r.mapError errD = (e.step (.write b)).2)
    (hl : ¬ (e.pending ++ b).length < 16) : (∃ out, r = .ok out) ↔ e.key.isSome := by
  rw [Dec.step, if_neg hl] at h
  cases hk : e.key with
  | none =>
    rw [hk] at h
    constructor
    · rintro ⟨out, rfl⟩; cases h
    · intro h; cases h
  | some key =>
    rw [hk] at h
    refine iff_of_true ?_ rfl
    cases r with
    | error e => cases h
    | ok out => exact ⟨out, rfl⟩

theorem dstep_grow (T : Target) (G : Policy) (d : Decipher) (e : Dec) (h : DInv T d e) (x : Call) :
    (∃ d' r, dstep T G d x = .ok (d', r) ∧ DInv T d' (e.step x).1 ∧ r.mapError errD = (e.step x).2 ∧
      (match x with
        | .write b => Grown d.buffer.storage.cap d'.buffer.storage.cap (e.pending.length + b.length) ∧
          (d'.unpad.storage.cap = d.unpad.storage.cap ∨
            Grown d.unpad.storage.cap d'.unpad.storage.cap (e.held.length + 16 * ((e.pending.length + b.length) / 16)))
        | _ => d'.buffer.storage.cap = d.buffer.storage.cap ∧ d'.unpad.storage.cap = d.unpad.storage.cap) ∧
      (G = std → Pow d.buffer.storage ∧ Pow d.unpad.storage → Pow d'.buffer.storage ∧ Pow d'.unpad.storage)) ∨
    (dstep T G d x = .error .capacity ∧ ∃ b, x = .write b ∧ (limit T < e.pending.length + b.length ∨
      e.key.isSome ∧ limit T < e.held.length + 16 * ((e.pending.length + b.length) / 16))) := by
  obtain ⟨d0, hr, hm⟩ := h
  obtain ⟨d0', r0, s1, s2, s3⟩ := dstep_spec T d0 e hm x
  have hpend : d.buffer.storage.data = e.pending := by
    have h1 := hr.buffer
    rw [hm.2.2.1] at h1
    injection h1 with _ h2; exact h2.symm
  have hheld : d.unpad.storage.data = e.held := by
    have h1 := hr.unpad
    rw [hm.2.2.2.2.1] at h1
    injection h1 with _ h2; exact h2.symm
  cases x with
  | init key =>
    left
    rw [AesCbc.dstep, AesCbc.Decipher.init] at s1
    rw [dstep, Decipher.init, hr.aes]
    cases e1 : d0.aes.init T key with
    | error e => rw [e1] at s1; cases s1
    | ok q =>
    obtain ⟨a, res⟩ := q
    rw [e1, ok_bind] at s1
    cases res with
    | error er =>
      cases s1
      exact ⟨{ d with aes := a }, _, rfl, ⟨{ d0 with aes := a }, ⟨rfl, hr.iv, hr.bsize, hr.buffer, hr.bgood, hr.usize, hr.unpad, hr.ugood⟩, s2⟩, s3, ⟨rfl, rfl⟩, fun _ h => h⟩
    | ok u =>
      cases s1
      exact ⟨{ d with aes := a }, _, rfl, ⟨{ d0 with aes := a }, ⟨rfl, hr.iv, hr.bsize, hr.buffer, hr.bgood, hr.usize, hr.unpad, hr.ugood⟩, s2⟩, s3, ⟨rfl, rfl⟩, fun _ h => h⟩
  | write b =>
    rcases pushAll_spec T G b d.buffer.storage hr.bgood with ⟨cap, h1, h2, h3, h4⟩ | ⟨h1, h2⟩
    · have hfit : (d.buffer.storage.data ++ b).length ≤ cap := h2.fits
      rw [List.length_append, hpend] at hfit
      have h32 : 32 ≤ cap := h2.room
      have hbl : d0'.buffer.storage.length ≤ cap := by
        rw [s2.2.2.1]
        have := s2.2.2.2.1
        show (e.step (.write b)).1.pending.length ≤ cap
        omega
      have hb0 : d0'.buffer = ⟨16, d0'.buffer.storage⟩ := by
        have := s2.2.2.1; rw [this]
      have hu0 : d0'.unpad = ⟨16, d0'.unpad.storage⟩ := by
        have := s2.2.2.2.2.1; rw [this]
      have hul : d0'.unpad.storage.length ≤ 16 := by
        rw [s2.2.2.2.2.1]
        show (e.step (.write b)).1.held.length ≤ 16
        rcases s2.2.2.2.2.2 with h | h
        · rw [h]; simp
        · omega
      have hG1 : Grown d.buffer.storage.cap cap (e.pending.length + b.length) := by
        rw [hpend] at h4
        exact ⟨h3, hfit, h4⟩
      have hpow : ∀ data, G = std → Pow d.buffer.storage → Pow ⟨data, cap⟩ := by
        intro data hG hp
        subst hG
        obtain ⟨k, hk⟩ := pushAll_pow T b _ _ hr.bgood hp h1
        exact ⟨k, hk⟩
      rcases decipher_write_grow T G d d0 d0' b r0 cap hr h1 h2 s1 with ⟨_, r', w1, w2, w3⟩ | ⟨padded, w1, w2, w3, w4⟩
      · left
        refine ⟨⟨d0'.aes, d.unpad, d0'.iv, ⟨16, ⟨d0'.buffer.storage, cap⟩⟩⟩, r0, ?_,
          ⟨d0', ⟨rfl, rfl, rfl, hb0, ⟨hbl, h32, h2.max⟩, hr.usize, w3.trans hr.unpad, hr.ugood⟩, s2⟩, s3, ⟨hG1, .inl rfl⟩, ?_⟩
        · rw [dstep, w1, ok_bind]; dsimp only; rw [w2]; rfl
        · exact fun hG hp => ⟨hpow _ hG hp.1, hp.2⟩
      · rw [List.length_append, hpend] at w1
        rcases pushAll_spec T G padded d.unpad.storage hr.ugood with ⟨cap2, q1, q2, q3, q4⟩ | ⟨q1, q2⟩
        · left
          have hf2 : (d.unpad.storage.data ++ padded).length ≤ cap2 := q2.fits
          have hr2 : 32 ≤ cap2 := q2.room
          rw [List.length_append, hheld, w1] at hf2
          rw [hheld, w1] at q4
          obtain ⟨r', m1, m2⟩ := w3 cap2 q1 q2
          refine ⟨⟨d0'.aes, ⟨16, ⟨d0'.unpad.storage, cap2⟩⟩, d0'.iv, ⟨16, ⟨d0'.buffer.storage, cap⟩⟩⟩, r0, ?_,
            ⟨d0', ⟨rfl, rfl, rfl, hb0, ⟨hbl, h32, h2.max⟩, rfl, hu0, ⟨?_, hr2, q2.max⟩⟩, s2⟩, s3,
            ⟨hG1, .inr ⟨q3, hf2, q4⟩⟩, ?_⟩
          · rw [dstep, m1, ok_bind]; dsimp only; rw [m2]; rfl
          · show d0'.unpad.storage.length ≤ cap2
            omega
          · intro hG hp
            refine ⟨hpow _ hG hp.1, ?_⟩
            subst hG
            obtain ⟨k, hk⟩ := pushAll_pow T padded _ _ hr.ugood hp.2 q1
            exact ⟨k, hk⟩
        · right
          rw [hheld, w1] at q2
          refine ⟨?_, b, rfl, .inr ⟨?_, q2⟩⟩
          · rw [dstep, w4 q1]; rfl
          · refine (dec_ok_key e b r0 s3 ?_).1 w2
            intro hl
            have h16 : e.held.length ≤ 16 := by
              rcases hm.2.2.2.2.2 with h | h
              · rw [h]; simp
              · omega
            have := limit_large T
            rw [List.length_append] at hl
            omega
    · right
      rw [hpend] at h2
      refine ⟨?_, b, rfl, .inl h2⟩
      rw [dstep, Decipher.write, Pad.write]
      rw [show (forEach b d.buffer.storage fun elem storage => storage.push T G elem) = .error .capacity from h1]
      rfl
  | flush =>
    left
    obtain ⟨ha, hi, hs, hbuf, hbg, hus, hun, hug⟩ := hr
    obtain ⟨aes, ⟨usz, u⟩, iv, ⟨bsz, v⟩⟩ := d
    dsimp only at ha hi hs hbuf hbg hus hun hug ⊢
    subst hs hus
    rw [AesCbc.dstep, AesCbc.Decipher.flush, hun] at s1
    cases e1 : Pkcs7.Unpad.flush T ⟨16, u.data⟩ with
    | error e => rw [e1] at s1; cases s1
    | ok q =>
    obtain ⟨p, r1⟩ := q
    obtain ⟨r', i1, i2⟩ := unpad_flush_grow T u hug p r1 e1
    rw [e1, ok_bind] at s1
    have hd : d0' = { d0 with unpad := p } ∧ r0 = r1.mapError DecipherError.PKCS7 := by
      cases r1 <;> (cases s1; exact ⟨rfl, rfl⟩)
    obtain ⟨rfl, rfl⟩ := hd
    have hp16 : p = ⟨16, p.storage⟩ := by
      have := s2.2.2.2.2.1
      dsimp only at this
      rw [this]
    have hpl : p.storage.length ≤ 16 := by
      have := s2.2.2.2.2.1
      dsimp only at this
      rw [this]
      show (e.step .flush).1.held.length ≤ 16
      rcases s2.2.2.2.2.2 with h | h
      · rw [h]; simp
      · omega
    have := hug.room
    refine ⟨⟨aes, ⟨16, ⟨p.storage, u.cap⟩⟩, iv, ⟨16, v⟩⟩, _, ?_,
      ⟨{ d0 with unpad := p }, ⟨ha, hi, rfl, hbuf, hbg, rfl, hp16, ⟨by show p.storage.length ≤ u.cap; omega, hug.room, hug.max⟩⟩, s2⟩, s3, ⟨rfl, rfl⟩, fun _ h => h⟩
    rw [dstep, Decipher.flush]
    dsimp only
    rw [i1]
    subst i2
    cases r' <;> rfl

theorem dstep_std (T : Target) (d : Decipher) (e : Dec) (h : DInv T d e) (hp : Pow d.buffer.storage) (hq : Pow d.unpad.storage) (b : List U8)
    (hb : limit T < e.pending.length + b.length ∨ e.key.isSome ∧ limit T < e.held.length + 16 * ((e.pending.length + b.length) / 16)) :
    dstep T std d (.write b) = .error .capacity := by
  obtain ⟨d0, hr, hm⟩ := h
  have hpend : d.buffer.storage.data = e.pending := by
    have h1 := hr.buffer
    rw [hm.2.2.1] at h1
    injection h1 with _ h2; exact h2.symm
  have hheld : d.unpad.storage.data = e.held := by
    have h1 := hr.unpad
    rw [hm.2.2.2.2.1] at h1
    injection h1 with _ h2; exact h2.symm
  rcases pushAll_spec T std b d.buffer.storage hr.bgood with ⟨cap, h1, h2, h3, h4⟩ | ⟨h1, h2⟩
  · have hc : cap ≤ limit T := pow_limit T _ h2 (pushAll_pow T b _ _ hr.bgood hp h1)
    have hfit : (d.buffer.storage.data ++ b).length ≤ cap := h2.fits
    rw [List.length_append, hpend] at hfit
    rcases hb with hb | ⟨hk, hb⟩
    · omega
    obtain ⟨d0', r0, s1, s2, s3⟩ := dstep_spec T d0 e hm (.write b)
    have h16 : e.held.length ≤ 16 := by
      rcases hm.2.2.2.2.2 with h | h
      · rw [h]; simp
      · omega
    have := limit_large T
    have hl : ¬ (e.pending ++ b).length < 16 := by
      rw [List.length_append]
      omega
    rcases decipher_write_grow T std d d0 d0' b r0 cap hr h1 h2 s1 with ⟨w0, _⟩ | ⟨padded, w1, w2, w3, w4⟩
    · rw [hpend] at w0
      rcases w0 with w0 | ⟨er, w0⟩
      · exact absurd w0 hl
      · obtain ⟨out, ho⟩ := (dec_ok_key e b r0 s3 hl).2 hk
        rw [w0] at ho; cases ho
    · rw [List.length_append, hpend] at w1
      rw [dstep, w4 (pushAll_std T padded _ hr.ugood hq (by rw [hheld, w1]; exact hb))]
      rfl
  · rw [dstep, Decipher.write, Pad.write]
    rw [show (forEach b d.buffer.storage fun elem storage => storage.push T std elem) = .error .capacity from h1]
    rfl

end Verif.Growing
