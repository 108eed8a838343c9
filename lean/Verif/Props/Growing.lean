import Verif.Proof.GrowingScrypt

/-!
Property C98: how much one `write` can take. `Cipher` and `Decipher` gather the octets of a `write` in a vector that starts with room for two
blocks and grows as it is filled. Growing beyond `isize::MAX` octets is a panic. The statements say how large a `write` may be so that this
cannot happen, whichever way the standard library chooses to grow vectors; that the limit is exact for the way it does; that growing changes
nothing else; and how much room an object keeps after a large `write`. The last section is about `derive`, which collects the mixed lanes of scrypt
into such a vector.
-/

namespace Verif.Props.Growing
open Verif Verif.Aes Verif.AesCbc Verif.Growing Spec.Cbc

/-- A history in which nothing is too large: `crun` without a panic. -/
theorem crun_within (T : Target) (G : Policy) (calls : List Call) (c : Growing.Cipher) (e : Enc) (h : CInv T c e)
    (hw : e.Within (2 ^ (T.bits - 2)) calls) :
    ∃ c' rs, Growing.crun T G c calls = .ok (c', rs) ∧ rs.map (·.mapError errA) = (e.run calls).2 := by
  induction calls generalizing c e with
  | nil => exact ⟨c, [], rfl, rfl⟩
  | cons x xs ih =>
    rcases cstep_grow T G c e h x with ⟨c1, r, h1, h2, h3, _, _⟩ | ⟨_, b, rfl, h2⟩
    · obtain ⟨c2, rs, h4, h5⟩ := ih c1 _ h2 (by cases x <;> first | exact hw | exact hw.2)
      refine ⟨c2, r :: rs, ?_, ?_⟩
      · rw [Growing.crun, h1, ok_bind]; dsimp only; rw [h4]; rfl
      · rw [List.map_cons, h3, h5]; rfl
    · exact absurd hw.1 (Nat.not_le.2 h2)

theorem crun_any (T : Target) (G : Policy) (calls : List Call) (c : Growing.Cipher) (e : Enc) (h : CInv T c e) :
    (∃ c' rs, Growing.crun T G c calls = .ok (c', rs) ∧ rs.map (·.mapError errA) = (e.run calls).2 ∧ CInv T c' (e.run calls).1) ∨
      Growing.crun T G c calls = .error .capacity := by
  induction calls generalizing c e with
  | nil => exact .inl ⟨c, [], rfl, rfl, h⟩
  | cons x xs ih =>
    rcases cstep_grow T G c e h x with ⟨c1, r, h1, h2, h3, _, _⟩ | ⟨h1, _⟩
    · rw [Growing.crun, h1, ok_bind]
      dsimp only
      rcases ih c1 _ h2 with ⟨c2, rs, h4, h5, h6⟩ | h4
      · left
        refine ⟨c2, r :: rs, by rw [h4]; rfl, by rw [List.map_cons, h3, h5]; rfl, h6⟩
      · right; rw [h4]; rfl
    · right; rw [Growing.crun, h1]; rfl

theorem crun_beyond (T : Target) (calls : List Call) (c : Growing.Cipher) (e : Enc) (h : CInv T c e) (hp : Pow c.pad.storage)
    (hw : ¬ e.Within (2 ^ (T.bits - 2)) calls) : Growing.crun T std c calls = .error .capacity := by
  induction calls generalizing c e with
  | nil => exact absurd trivial hw
  | cons x xs ih =>
    rcases cstep_grow T std c e h x with ⟨c1, r, h1, h2, h3, _, h5⟩ | ⟨h1, _⟩
    · have hs : ¬ (e.step x).1.Within (2 ^ (T.bits - 2)) xs := by
        cases x with
        | init key => exact hw
        | flush => exact hw
        | write b =>
          intro hx
          have hb : ¬ e.pending.length + b.length ≤ limit T := fun hb => hw ⟨hb, hx⟩
          rw [cstep_std T c e h hp b (Nat.not_le.1 hb)] at h1
          cases h1
      rw [Growing.crun, h1, ok_bind]
      dsimp only
      rw [ih c1 _ h2 (h5 rfl hp) hs]
      rfl
    · rw [Growing.crun, h1]; rfl

theorem enc_within (limit : Nat) (calls : List Call) (e : Enc) (he : e.pending.length < 16) (h : ∀ b, Call.write b ∈ calls → b.length + 15 ≤ limit) :
    e.Within limit calls := by
  induction calls generalizing e with
  | nil => trivial
  | cons x xs ih =>
    have hx : (e.step x).1.pending.length < 16 := by
      cases x with
      | init key => rw [Enc.step]; split <;> exact he
      | write b =>
        rw [Enc.step]
        split
        · assumption
        · split <;> exact tail_length _
      | flush => rw [Enc.step]; split <;> simp
    have hr := ih _ hx (fun b hb => h b (List.mem_cons_of_mem _ hb))
    cases x with
    | init key => exact hr
    | flush => exact hr
    | write b => exact ⟨by have := h b (by simp); omega, hr⟩

/-- C98: a `Cipher` whose `write`s gather no more than a quarter of the address space (2^30 octets on a 32-bit target, 2^62 on a 64-bit target)
never panics, however vectors grow, and its answers are those of the abstract machine. -/
theorem C98_cipher (T : Target) (G : Policy) (iv : Vector U8 16) (calls : List Call)
    (h : Enc.Within (2 ^ (T.bits - 2)) ⟨none, iv.toList, []⟩ calls) :
    ∃ c rs, csession T G iv calls = .ok (c, rs) ∧ rs.map (·.mapError errA) = (Enc.run ⟨none, iv.toList, []⟩ calls).2 := by
  obtain ⟨c, h1, h2, _⟩ := cnew_inv T iv
  rw [csession, h1, ok_bind]
  exact crun_within T G calls c _ h2 h

/-- C98: in particular when every single `write` leaves 15 octets of that free, whatever else was called before. -/
theorem C98_cipher_each (T : Target) (G : Policy) (iv : Vector U8 16) (calls : List Call)
    (h : ∀ b, Call.write b ∈ calls → b.length + 15 ≤ 2 ^ (T.bits - 2)) :
    ∃ c rs, csession T G iv calls = .ok (c, rs) ∧ rs.map (·.mapError errA) = (Enc.run ⟨none, iv.toList, []⟩ calls).2 :=
  C98_cipher T G iv calls (enc_within _ _ _ (by simp) h)

/-- C98: the limit is exact for the standard library: one octet more, in any `write` of the history, and the program panics. -/
theorem C98_cipher_exact (T : Target) (iv : Vector U8 16) (calls : List Call) :
    csession T std iv calls = .error .capacity ↔ ¬ Enc.Within (2 ^ (T.bits - 2)) ⟨none, iv.toList, []⟩ calls := by
  constructor
  · intro he hw
    obtain ⟨c, rs, h1, _⟩ := C98_cipher T std iv calls hw
    rw [h1] at he
    cases he
  · intro hw
    obtain ⟨c, h1, h2, h3⟩ := cnew_inv T iv
    rw [csession, h1, ok_bind]
    exact crun_beyond T calls c _ h2 ⟨5, h3⟩ hw

/-- C98: growing does nothing else. Either the answers are those of the abstract machine, or the program panicked over a capacity. -/
theorem C98_cipher_only (T : Target) (G : Policy) (iv : Vector U8 16) (calls : List Call) :
    (∃ c rs, csession T G iv calls = .ok (c, rs) ∧ rs.map (·.mapError errA) = (Enc.run ⟨none, iv.toList, []⟩ calls).2) ∨
      csession T G iv calls = .error .capacity := by
  obtain ⟨c, h1, h2, _⟩ := cnew_inv T iv
  rw [csession, h1, ok_bind]
  rcases crun_any T G calls c _ h2 with ⟨c', rs, h3, h4, _⟩ | h3
  · exact .inl ⟨c', rs, h3, h4⟩
  · exact .inr h3

theorem crun_kept (T : Target) (G : Policy) (calls : List Call) (c c' : Growing.Cipher) (e : Enc) (rs : List (Except AESError (List U8)))
    (h : CInv T c e) (hr : Growing.crun T G c calls = .ok (c', rs)) :
    c.pad.storage.cap ≤ c'.pad.storage.cap ∧ (∀ b, Call.write b ∈ calls → b.length ≤ c'.pad.storage.cap) ∧
      ∀ n, (∀ b, Call.write b ∈ calls → b.length ≤ n) → c'.pad.storage.cap ≤ max c.pad.storage.cap (2 * (n + 15)) := by
  induction calls generalizing c e rs with
  | nil => cases hr; exact ⟨Nat.le_refl _, by simp, fun n _ => Nat.le_max_left _ _⟩
  | cons x xs ih =>
    rcases cstep_grow T G c e h x with ⟨c1, r, h1, h2, _, h4, _⟩ | ⟨h1, _⟩
    · rw [Growing.crun, h1, ok_bind] at hr
      dsimp only at hr
      cases h5 : Growing.crun T G c1 xs with
      | error er => rw [h5] at hr; cases hr
      | ok q =>
      obtain ⟨c2, rs2⟩ := q
      rw [h5, ok_bind] at hr
      cases hr
      obtain ⟨i1, i2, i3⟩ := ih c1 _ rs2 h2 h5
      have hp : e.pending.length < 16 := by
        obtain ⟨c0, _, hm⟩ := h
        exact hm.2.2.2
      have key : c.pad.storage.cap ≤ c1.pad.storage.cap ∧ (∀ b, x = .write b → b.length ≤ c1.pad.storage.cap) ∧
          ∀ n, (∀ b, x = .write b → b.length ≤ n) → c1.pad.storage.cap ≤ max c.pad.storage.cap (2 * (n + 15)) := by
        cases x with
        | init k => exact ⟨Nat.le_of_eq h4.symm, (by intro b hb; cases hb), fun n _ => by rw [h4]; exact Nat.le_max_left _ _⟩
        | flush => exact ⟨Nat.le_of_eq h4.symm, (by intro b hb; cases hb), fun n _ => by rw [h4]; exact Nat.le_max_left _ _⟩
        | write b =>
          obtain ⟨g1, g2, g3⟩ := h4
          refine ⟨g1, ?_, ?_⟩
          · rintro b' hb; cases hb; omega
          · intro n hn
            have := hn b rfl
            omega
      obtain ⟨k1, k2, k3⟩ := key
      refine ⟨Nat.le_trans k1 i1, ?_, ?_⟩
      · intro b hb
        rcases List.mem_cons.1 hb with hb | hb
        · exact Nat.le_trans (k2 b hb.symm) i1
        · exact i2 b hb
      · intro n hn
        have := i3 n (fun b hb => hn b (List.mem_cons_of_mem _ hb))
        have := k3 n (fun b hb => hn b (by rw [hb]; simp))
        omega
    · rw [Growing.crun, h1] at hr; cases hr

/-- C98: the room a `Cipher` keeps is at least that of its largest `write`, also after a `flush`, and at most about twice that. -/
theorem C98_cipher_room (T : Target) (G : Policy) (iv : Vector U8 16) (calls : List Call) (c : Growing.Cipher)
    (rs : List (Except AESError (List U8))) (h : csession T G iv calls = .ok (c, rs)) :
    (∀ b, Call.write b ∈ calls → b.length ≤ c.pad.storage.cap) ∧
    ∀ n, (∀ b, Call.write b ∈ calls → b.length ≤ n) → c.pad.storage.cap ≤ max 32 (2 * (n + 15)) := by
  obtain ⟨c0, h1, h2, h3⟩ := cnew_inv T iv
  rw [csession, h1, ok_bind] at h
  obtain ⟨_, i2, i3⟩ := crun_kept T G calls c0 c _ rs h2 h
  rw [h3] at i3
  exact ⟨i2, i3⟩

/-- What an instance has room for after 1000 bytes and 20 bytes. -/
example (T : Target) (G : Policy) (iv : Vector U8 16) (b b' : List U8) (hb : b.length = 1000) (hb' : b'.length = 20) :
    ∃ c rs, csession T G iv [.init (List.replicate 16 1), .write b, .write b'] = .ok (c, rs) ∧ 1000 ≤ c.pad.storage.cap ∧ c.pad.storage.cap ≤ 2030 := by
  have hT : 2 ^ 12 ≤ 2 ^ (T.bits - 2) := by rcases T with ⟨_ | _, _ | _⟩ <;> decide
  have hw : ∀ x, Call.write x ∈ [Call.init (List.replicate 16 1), .write b, .write b'] → x.length ≤ 1000 := by
    intro x hx
    simp only [List.mem_cons, reduceCtorEq, Call.write.injEq, false_or, List.not_mem_nil, or_false] at hx
    rcases hx with rfl | rfl <;> omega
  obtain ⟨c, rs, h, _⟩ := C98_cipher_each T G iv [.init (List.replicate 16 1), .write b, .write b'] (fun x hx => by have := hw x hx; omega)
  obtain ⟨h1, h2⟩ := C98_cipher_room T G iv _ c rs h
  exact ⟨c, rs, h, hb ▸ h1 b (by simp), Nat.le_trans (h2 1000 hw) (by decide)⟩

/-! ### `Decipher` -/

theorem drun_within (T : Target) (G : Policy) (calls : List Call) (d : Growing.Decipher) (e : Dec) (h : DInv T d e)
    (hw : e.Within (2 ^ (T.bits - 2)) calls) :
    ∃ d' rs, Growing.drun T G d calls = .ok (d', rs) ∧ rs.map (·.mapError errD) = (e.run calls).2 := by
  induction calls generalizing d e with
  | nil => exact ⟨d, [], rfl, rfl⟩
  | cons x xs ih =>
    rcases dstep_grow T G d e h x with ⟨d1, r, h1, h2, h3, _, _⟩ | ⟨_, b, rfl, h2⟩
    · obtain ⟨d2, rs, h4, h5⟩ := ih d1 _ h2 (by cases x <;> first | exact hw | exact hw.2.2)
      refine ⟨d2, r :: rs, ?_, ?_⟩
      · rw [Growing.drun, h1, ok_bind]; dsimp only; rw [h4]; rfl
      · rw [List.map_cons, h3, h5]; rfl
    · rcases h2 with h2 | ⟨hk, h2⟩
      · exact absurd hw.1 (Nat.not_le.2 h2)
      · exact absurd (hw.2.1 hk) (Nat.not_le.2 h2)

theorem drun_any (T : Target) (G : Policy) (calls : List Call) (d : Growing.Decipher) (e : Dec) (h : DInv T d e) :
    (∃ d' rs, Growing.drun T G d calls = .ok (d', rs) ∧ rs.map (·.mapError errD) = (e.run calls).2) ∨
      Growing.drun T G d calls = .error .capacity := by
  induction calls generalizing d e with
  | nil => exact .inl ⟨d, [], rfl, rfl⟩
  | cons x xs ih =>
    rcases dstep_grow T G d e h x with ⟨d1, r, h1, h2, h3, _, _⟩ | ⟨h1, _⟩
    · rw [Growing.drun, h1, ok_bind]
      dsimp only
      rcases ih d1 _ h2 with ⟨d2, rs, h4, h5⟩ | h4
      · left
        refine ⟨d2, r :: rs, by rw [h4]; rfl, by rw [List.map_cons, h3, h5]; rfl⟩
      · right; rw [h4]; rfl
    · right; rw [Growing.drun, h1]; rfl

theorem drun_beyond (T : Target) (calls : List Call) (d : Growing.Decipher) (e : Dec) (h : DInv T d e)
    (hp : Pow d.buffer.storage ∧ Pow d.unpad.storage) (hw : ¬ e.Within (2 ^ (T.bits - 2)) calls) :
    Growing.drun T std d calls = .error .capacity := by
  induction calls generalizing d e with
  | nil => exact absurd trivial hw
  | cons x xs ih =>
    rcases dstep_grow T std d e h x with ⟨d1, r, h1, h2, h3, _, h5⟩ | ⟨h1, _⟩
    · have hs : ¬ (e.step x).1.Within (2 ^ (T.bits - 2)) xs := by
        cases x with
        | init key => exact hw
        | flush => exact hw
        | write b =>
          intro hx
          have hb : limit T < e.pending.length + b.length ∨
              e.key.isSome ∧ limit T < e.held.length + 16 * ((e.pending.length + b.length) / 16) := by
            by_cases c1 : e.pending.length + b.length ≤ limit T
            · right
              by_cases c2 : e.key.isSome
              · refine ⟨c2, Nat.lt_of_not_le fun c3 => hw ⟨c1, fun _ => c3, hx⟩⟩
              · exact absurd ⟨c1, fun h => absurd h c2, hx⟩ hw
            · exact .inl (Nat.not_le.1 c1)
          rw [dstep_std T d e h hp.1 hp.2 b hb] at h1
          cases h1
      rw [Growing.drun, h1, ok_bind]
      dsimp only
      rw [ih d1 _ h2 (h5 rfl hp) hs]
      rfl
    · rw [Growing.drun, h1]; rfl

theorem dec_step_bounds (e : Dec) (he : e.pending.length < 16) (hh : e.held.length ≤ 16) (x : Call) :
    (e.step x).1.pending.length < 16 ∧ (e.step x).1.held.length ≤ 16 := by
  cases x with
  | init key => rw [Dec.step]; split <;> exact ⟨he, hh⟩
  | write b =>
    rw [Dec.step]
    split
    · exact ⟨by assumption, hh⟩
    · split
      · exact ⟨tail_length _, hh⟩
      · exact ⟨tail_length _, by dsimp only; rw [List.length_drop]; omega⟩
  | flush =>
    rw [Dec.step]
    split
    · exact ⟨he, hh⟩
    · split
      · exact ⟨he, by simp⟩
      · exact ⟨he, hh⟩

theorem dec_within (limit : Nat) (h16 : limit % 16 = 0) (calls : List Call) (e : Dec) (he : e.pending.length < 16) (hh : e.held.length ≤ 16)
    (h : ∀ b, Call.write b ∈ calls → b.length + 16 ≤ limit) : e.Within limit calls := by
  induction calls generalizing e with
  | nil => trivial
  | cons x xs ih =>
    obtain ⟨h1, h2⟩ := dec_step_bounds e he hh x
    have hr := ih _ h1 h2 (fun b hb => h b (List.mem_cons_of_mem _ hb))
    cases x with
    | init key => exact hr
    | flush => exact hr
    | write b =>
      have := h b (by simp)
      exact ⟨by omega, fun _ => by omega, hr⟩

/-- C98: a `Decipher` whose `write`s gather no more than a quarter of the address space, of ciphertext and of plaintext, never panics, however
vectors grow, and its answers are those of the abstract machine. -/
theorem C98_decipher (T : Target) (G : Policy) (iv : Vector U8 16) (calls : List Call)
    (h : Dec.Within (2 ^ (T.bits - 2)) ⟨none, iv.toList, [], []⟩ calls) :
    ∃ d rs, dsession T G iv calls = .ok (d, rs) ∧ rs.map (·.mapError errD) = (Dec.run ⟨none, iv.toList, [], []⟩ calls).2 := by
  obtain ⟨d, h1, h2, _⟩ := dnew_inv T iv
  rw [dsession, h1, ok_bind]
  exact drun_within T G calls d _ h2 h

/-- C98: in particular when every single `write` leaves 16 octets of that free, whatever else was called before. -/
theorem C98_decipher_each (T : Target) (G : Policy) (iv : Vector U8 16) (calls : List Call)
    (h : ∀ b, Call.write b ∈ calls → b.length + 16 ≤ 2 ^ (T.bits - 2)) :
    ∃ d rs, dsession T G iv calls = .ok (d, rs) ∧ rs.map (·.mapError errD) = (Dec.run ⟨none, iv.toList, [], []⟩ calls).2 :=
  C98_decipher T G iv calls
    (dec_within _ (by rcases T with ⟨_ | _, _⟩ <;> (simp only [Target.bits]; decide)) _ _ (by simp) (by simp) h)

/-- C98: the limit is exact for the standard library. -/
theorem C98_decipher_exact (T : Target) (iv : Vector U8 16) (calls : List Call) :
    dsession T std iv calls = .error .capacity ↔ ¬ Dec.Within (2 ^ (T.bits - 2)) ⟨none, iv.toList, [], []⟩ calls := by
  constructor
  · intro he hw
    obtain ⟨d, rs, h1, _⟩ := C98_decipher T std iv calls hw
    rw [h1] at he
    cases he
  · intro hw
    obtain ⟨d, h1, h2, h3, h4⟩ := dnew_inv T iv
    rw [dsession, h1, ok_bind]
    exact drun_beyond T calls d _ h2 ⟨⟨5, h3⟩, ⟨5, h4⟩⟩ hw

/-- C98: growing does nothing else. -/
theorem C98_decipher_only (T : Target) (G : Policy) (iv : Vector U8 16) (calls : List Call) :
    (∃ d rs, dsession T G iv calls = .ok (d, rs) ∧ rs.map (·.mapError errD) = (Dec.run ⟨none, iv.toList, [], []⟩ calls).2) ∨
      dsession T G iv calls = .error .capacity := by
  obtain ⟨d, h1, h2, _⟩ := dnew_inv T iv
  rw [dsession, h1, ok_bind]
  exact drun_any T G calls d _ h2

theorem drun_kept (T : Target) (G : Policy) (calls : List Call) (d d' : Growing.Decipher) (e : Dec) (rs : List (Except DecipherError (List U8)))
    (h : DInv T d e) (hr : Growing.drun T G d calls = .ok (d', rs)) :
    d.buffer.storage.cap ≤ d'.buffer.storage.cap ∧ (∀ b, Call.write b ∈ calls → b.length ≤ d'.buffer.storage.cap) ∧
      ∀ n, (∀ b, Call.write b ∈ calls → b.length ≤ n) → d'.buffer.storage.cap ≤ max d.buffer.storage.cap (2 * (n + 15)) ∧
        d'.unpad.storage.cap ≤ max d.unpad.storage.cap (2 * (n + 31)) := by
  induction calls generalizing d e rs with
  | nil => cases hr; exact ⟨Nat.le_refl _, by simp, fun n _ => ⟨Nat.le_max_left _ _, Nat.le_max_left _ _⟩⟩
  | cons x xs ih =>
    rcases dstep_grow T G d e h x with ⟨d1, r, h1, h2, _, h4, _⟩ | ⟨h1, _⟩
    · rw [Growing.drun, h1, ok_bind] at hr
      dsimp only at hr
      cases h5 : Growing.drun T G d1 xs with
      | error er => rw [h5] at hr; cases hr
      | ok q =>
      obtain ⟨d2, rs2⟩ := q
      rw [h5, ok_bind] at hr
      cases hr
      obtain ⟨i1, i2, i3⟩ := ih d1 _ rs2 h2 h5
      have hp : e.pending.length < 16 ∧ e.held.length ≤ 16 := by
        obtain ⟨d0, _, hm⟩ := h
        refine ⟨hm.2.2.2.1, ?_⟩
        rcases hm.2.2.2.2.2 with h | h
        · rw [h]; simp
        · omega
      have key : d.buffer.storage.cap ≤ d1.buffer.storage.cap ∧ (∀ b, x = .write b → b.length ≤ d1.buffer.storage.cap) ∧
          ∀ n, (∀ b, x = .write b → b.length ≤ n) → d1.buffer.storage.cap ≤ max d.buffer.storage.cap (2 * (n + 15)) ∧
            d1.unpad.storage.cap ≤ max d.unpad.storage.cap (2 * (n + 31)) := by
        cases x with
        | init k =>
          exact ⟨Nat.le_of_eq h4.1.symm, (by intro b hb; cases hb), fun n _ => by rw [h4.1, h4.2]; exact ⟨Nat.le_max_left _ _, Nat.le_max_left _ _⟩⟩
        | flush =>
          exact ⟨Nat.le_of_eq h4.1.symm, (by intro b hb; cases hb), fun n _ => by rw [h4.1, h4.2]; exact ⟨Nat.le_max_left _ _, Nat.le_max_left _ _⟩⟩
        | write b =>
          obtain ⟨⟨g1, g2, g3⟩, g4⟩ := h4
          refine ⟨g1, ?_, ?_⟩
          · rintro b' hb; cases hb; omega
          · intro n hn
            have := hn b rfl
            refine ⟨by omega, ?_⟩
            rcases g4 with g4 | ⟨_, _, g6⟩
            · rw [g4]; exact Nat.le_max_left _ _
            · omega
      obtain ⟨k1, k2, k3⟩ := key
      refine ⟨Nat.le_trans k1 i1, ?_, ?_⟩
      · intro b hb
        rcases List.mem_cons.1 hb with hb | hb
        · exact Nat.le_trans (k2 b hb.symm) i1
        · exact i2 b hb
      · intro n hn
        have := i3 n (fun b hb => hn b (List.mem_cons_of_mem _ hb))
        have := k3 n (fun b hb => hn b (by rw [hb]; simp))
        omega
    · rw [Growing.drun, h1] at hr; cases hr

/-- C98: the room a `Decipher` keeps is at least that of its largest `write`, and at most about four times that. -/
theorem C98_decipher_room (T : Target) (G : Policy) (iv : Vector U8 16) (calls : List Call) (d : Growing.Decipher)
    (rs : List (Except DecipherError (List U8))) (h : dsession T G iv calls = .ok (d, rs)) :
    (∀ b, Call.write b ∈ calls → b.length ≤ d.buffer.storage.cap) ∧
    ∀ n, (∀ b, Call.write b ∈ calls → b.length ≤ n) →
      d.buffer.storage.cap ≤ max 32 (2 * (n + 15)) ∧ d.unpad.storage.cap ≤ max 32 (2 * (n + 31)) := by
  obtain ⟨d0, h1, h2, h3, h4⟩ := dnew_inv T iv
  rw [dsession, h1, ok_bind] at h
  obtain ⟨_, i2, i3⟩ := drun_kept T G calls d0 d _ rs h2 h
  rw [h3, h4] at i3
  exact ⟨i2, i3⟩

/-! ### Scrypt -/

/-- C98: scrypt's lanes are collected in a vector that grows, and this does not get in the way: wherever C16 says that `derive` returns the key of
RFC 7914, it does so however vectors grow, and whatever the iterator says about the number of octets to come. -/
theorem C98_scrypt (T : Target) (G : Policy) (lower : Nat → Nat) (hl : ∀ n, lower n ≤ n) (r n p : Nat) (P S out : List U8) (hr : 1 ≤ r)
    (hn : ∃ k, n = 2 ^ k) (hp : 1 ≤ p) (hmem : p * 128 * r ≤ T.isizeMax) (htab : n * T.vecSize ≤ T.isizeMax) (hP : 8 * P.length < 2 ^ T.bits)
    (hS : 8 * (64 + S.length + 4) < 2 ^ T.bits) (hB : 8 * (64 + p * 128 * r + 4) < 2 ^ T.bits) (hout : out.length ≤ T.isizeMax) :
    Growing.derive T G lower (.new r n p) P S out = .ok (Spec.Scrypt.scrypt P S n r p out.length, .ok ()) := by
  have h := Verif.Props.Scrypt.C16_scrypt_correct T r n p P S out hr hn hp hmem htab hP hS hB hout
  rcases derive_len T G lower (.new r n p) P S out hr hn hp hmem with ⟨⟨e, he⟩, _⟩ | ⟨salt, h1, h2, h3⟩
  · rw [h] at he; cases he
  · have hlim : salt.length ≤ limit T := by
      rw [h1]
      show p * 128 * r ≤ limit T
      have : 2 ^ T.bits = 4 * limit T := by rcases T with ⟨_ | _, _⟩ <;> (simp only [limit, Target.bits]; decide)
      omega
    rcases collect_spec T G lower hl salt with ⟨c, hc⟩ | ⟨_, hc⟩
    · rw [h3, hc, ok_bind, ← h, h2]
    · omega

/-- C98: and in general `derive` does what it does with vectors of any size, or panics over the capacity. -/
theorem C98_scrypt_only (T : Target) (G : Policy) (lower : Nat → Nat) (hl : ∀ n, lower n ≤ n) (s : Scrypt.Scrypt) (P S out : List U8) :
    Growing.derive T G lower s P S out = s.derive T P S out ∨ Growing.derive T G lower s P S out = .error .capacity :=
  derive_only T G lower hl s P S out

/-- A hint that is always 0. -/
example (T : Target) (G : Policy) (P S out : List U8) := C98_scrypt_only T G (fun _ => 0) (fun n => Nat.zero_le n) (.new 8 16384 1) P S out

/-- C98: with the standard library, where `derive` would otherwise return, it panics exactly when the lanes take more than a quarter of the address
space. -/
theorem C98_scrypt_exact (T : Target) (r n p : Nat) (P S out : List U8) (hr : 1 ≤ r) (hn : ∃ k, n = 2 ^ k) (hp : 1 ≤ p)
    (hmem : p * 128 * r ≤ T.isizeMax) (res : List U8 × Except Scrypt.ScryptError Unit)
    (hres : (Scrypt.Scrypt.new r n p).derive T P S out = .ok res) :
    Growing.derive T std restOfBlock (.new r n p) P S out = (if p * 128 * r ≤ 2 ^ (T.bits - 2) then .ok res else .error .capacity) := by
  rcases derive_len T std restOfBlock (.new r n p) P S out hr hn hp hmem with ⟨⟨e, he⟩, _⟩ | ⟨salt, h1, h2, h3⟩
  · rw [hres] at he; cases he
  · change salt.length = p * 128 * r at h1
    split
    · rename_i hle
      rcases collect_spec T std restOfBlock (fun n => Nat.mod_le _ _) salt with ⟨c, hc⟩ | ⟨_, hc⟩
      · rw [h3, hc, ok_bind, ← hres, h2]
      · exact absurd hle (by rw [← h1]; exact Nat.not_le.2 hc)
    · rename_i hgt
      rw [h3, collect_std T salt (by rw [h1, Nat.mul_right_comm]; omega) (by rw [h1]; exact Nat.not_le.1 hgt)]
      rfl

/-- The usage example of the crate, on every target and with every way to grow. -/
example (T : Target) (G : Policy) : Growing.derive T G restOfBlock (.new 1 128 1) [1, 2, 3] [4] [0, 0, 0, 0, 0, 0, 0, 0] =
    .ok (Spec.Scrypt.scrypt [1, 2, 3] [4] 128 1 1 8, .ok ()) := by
  have := T.two_pow_ge
  have hi : 2 ^ 31 - 1 ≤ T.isizeMax := by
    rw [Target.isizeMax]; rcases T.bits_cases with h | h <;> rw [h] <;> decide
  have hv := Scrypt.vecSize_le T
  exact C98_scrypt T G restOfBlock (fun n => Nat.mod_le _ _) 1 128 1 [1, 2, 3] [4] [0, 0, 0, 0, 0, 0, 0, 0] (by decide) ⟨7, rfl⟩ (by decide)
    (by omega) (by omega) (by simp only [List.length_cons, List.length_nil]; omega)
    (by simp only [List.length_cons, List.length_nil]; omega) (by omega)
    (by simp only [List.length_cons, List.length_nil]; omega)

/-- On a 32-bit target without overflow checks, with a gigabyte of lanes `derive` returns, and with one lane more it panics. -/
example (P S out : List U8) (hout : out.length ≤ 100) (p : Nat) (hp : p = 2 ^ 23 ∨ p = 2 ^ 23 + 1) :
    ∃ res, Growing.derive ⟨.w32, false⟩ std restOfBlock (.new 1 2 p) P S out = (if p = 2 ^ 23 then .ok res else .error .capacity) := by
  have hd := Scrypt.derive_eq ⟨.w32, false⟩ (.new 1 2 p) P S out (by show 1 ≤ 1; decide) ⟨1, rfl⟩ (by show 1 ≤ p; omega) (.inl rfl)
    (by show 128 * 1 < 2 ^ 32; decide) (by show p * 128 * 1 % 2 ^ 32 ≤ 2 ^ 31 - 1; omega)
    (.inr (by show 2 * 12 ≤ 2 ^ 31 - 1; decide)) (.inl rfl) (.inl rfl) (.inl rfl) (by show out.length ≤ 2 ^ 31 - 1; omega)
  have he := C98_scrypt_exact ⟨.w32, false⟩ 1 2 p P S out (by decide) ⟨1, rfl⟩ (by omega) (by show p * 128 * 1 ≤ 2 ^ 31 - 1; omega) _ hd
  revert he
  generalize (Spec.Scrypt.scryptWith _ P S _ _ _ out.length, (Except.ok () : Except Scrypt.ScryptError Unit)) = res
  intro he
  refine ⟨res, he.trans ?_⟩
  show (if p * 128 * 1 ≤ 2 ^ 30 then _ else _) = _
  rcases hp with rfl | rfl
  · rw [if_pos (by decide), if_pos rfl]
  · rw [if_neg (by decide), if_neg (by decide)]

/-! ### Cases -/

/-- On a 32-bit target a gigabyte can be encrypted at once, -/
example (checks : Bool) (iv : Vector U8 16) (b : List U8) (hb : b.length = 2 ^ 30) :
    ∃ c rs, csession ⟨.w32, checks⟩ std iv [.init (List.replicate 16 0), .write b, .flush] = .ok (c, rs) ∧
      rs.map (·.mapError errA) = (Enc.run ⟨none, iv.toList, []⟩ [.init (List.replicate 16 0), .write b, .flush]).2 :=
  C98_cipher _ _ _ _ ⟨by show 0 + b.length ≤ 2 ^ 30; omega, trivial⟩

/-- and one octet more is a panic; -/
example (checks : Bool) (iv : Vector U8 16) (b : List U8) (hb : b.length = 2 ^ 30 + 1) :
    csession ⟨.w32, checks⟩ std iv [.init (List.replicate 16 0), .write b, .flush] = .error .capacity :=
  (C98_cipher_exact _ _ _).2 fun h => by
    have : 0 + b.length ≤ 2 ^ 30 := h.1
    omega

/-- also after a short `write`, when it is the fifteen octets of that one that are too many. -/
example (checks : Bool) (iv : Vector U8 16) (b : List U8) (hb : b.length = 2 ^ 30 - 14) :
    csession ⟨.w32, checks⟩ std iv [.write (List.replicate 15 7), .write b] = .error .capacity :=
  (C98_cipher_exact _ _ _).2 fun h => by
    have : 15 + b.length ≤ 2 ^ 30 := h.2.1
    omega

/-- A `Decipher` that holds back a block cannot take a whole gigabyte, -/
example (checks : Bool) (iv : Vector U8 16) (b : List U8) (hb : b.length = 2 ^ 30) :
    dsession ⟨.w32, checks⟩ std iv [.init (List.replicate 16 0), .write (List.replicate 16 7), .write b] = .error .capacity :=
  (C98_decipher_exact _ _ _).2 fun h => by
    have h1 := h.2.2.2.1 (by rfl)
    have hd : (decrypt (List.replicate 16 0) iv.toList (List.replicate 16 (7 : U8))).length = 16 := by
      rw [decrypt_length _ _ _ (by simp)]; decide
    have hh : (((⟨none, iv.toList, [], []⟩ : Dec).step (.init (List.replicate 16 0))).1.step (.write (List.replicate 16 7))).1.held.length = 16 := by
      show (([] ++ decrypt (List.replicate 16 0) iv.toList (List.replicate 16 (7 : U8))).drop
        (([] ++ decrypt (List.replicate 16 0) iv.toList (List.replicate 16 (7 : U8))).length - 16)).length = 16
      rw [List.nil_append, List.length_drop, hd]
    rw [hh] at h1
    have hx : ∀ n : Nat, 16 + 16 * ((n + b.length) / 16) ≤ 2 ^ 30 → False := fun n h => by omega
    exact hx _ h1

/-- but one that has no key only gathers ciphertext. -/
example (checks : Bool) (G : Policy) (iv : Vector U8 16) (b : List U8) (hb : b.length = 2 ^ 30) :
    ∃ d rs, dsession ⟨.w32, checks⟩ G iv [.write b, .write b] = .ok (d, rs) ∧
      rs.map (·.mapError errD) = (Dec.run ⟨none, iv.toList, [], []⟩ [.write b, .write b]).2 := by
  have hb' : b.length = 16 * 2 ^ 26 := by omega
  refine C98_decipher _ _ _ _ ⟨by show 0 + b.length ≤ 2 ^ 30; omega, (fun h => by cases h), ?_, ?_, trivial⟩
  · rw [Dec.step, if_neg (by simp; omega)]
    show (tail ([] ++ b)).length + b.length ≤ 2 ^ 30
    rw [List.nil_append, tail, List.length_drop]; omega
  · rw [Dec.step, if_neg (by simp; omega)]
    intro h; cases h

/-- The histories of ordinary use are within the limit. -/
example (T : Target) (G : Policy) (iv : Vector U8 16) :
    ∃ d rs, dsession T G iv [.init (List.replicate 32 1), .write (List.replicate 100 2), .flush, .write (List.replicate 1000 3)] = .ok (d, rs) ∧
      d.buffer.storage.cap ≤ 2030 ∧ 1000 ≤ d.buffer.storage.cap := by
  obtain ⟨d, rs, h, _⟩ := C98_decipher_each T G iv
    [.init (List.replicate 32 1), .write (List.replicate 100 2), .flush, .write (List.replicate 1000 3)] (by
      have := limit_large T
      have hl : limit T % 16 = 0 ∧ 2 ^ 20 ≤ limit T := by rcases T with ⟨_ | _, _⟩ <;> (simp only [limit, Target.bits]; decide)
      intro b hb
      show b.length + 16 ≤ limit T
      simp only [List.mem_cons, List.not_mem_nil, or_false, reduceCtorEq, Call.write.injEq, false_or] at hb
      rcases hb with rfl | rfl <;> (rw [List.length_replicate]; omega))
  obtain ⟨h1, h2⟩ := C98_decipher_room T G iv _ d rs h
  refine ⟨d, rs, h, (h2 1000 ?_).1, ?_⟩
  · intro b hb
    simp only [List.mem_cons, List.not_mem_nil, or_false, reduceCtorEq, Call.write.injEq, false_or] at hb
    rcases hb with rfl | rfl <;> (rw [List.length_replicate]; omega)
  · have := h1 (List.replicate 1000 3) (.tail _ (.tail _ (.tail _ (.head _))))
    rwa [List.length_replicate] at this

end Verif.Props.Growing
