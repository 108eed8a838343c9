import Verif.Props.CbcHistory

/-! Properties C54 (joining writes) and C55 (calls without effect) of `aes_cbc.rs`, at any place of any history. -/

namespace Verif.Props.CbcSplit
open Verif Verif.Aes Verif.Pkcs7 Verif.AesCbc Spec.Cbc
open Verif.Props.CbcHistory (tail_tail errA_ok errA_error errD_ok errD_error errD_injective)

/-! ### Histories on the abstract machines -/

theorem enc_run_append (e : Enc) (xs ys : List Call) :
    e.run (xs ++ ys) = (((e.run xs).1.run ys).1, (e.run xs).2 ++ ((e.run xs).1.run ys).2) := by
  induction xs generalizing e with
  | nil => rfl
  | cons x xs ih => simp only [List.cons_append, Enc.run, ih, Prod.map, id]

theorem dec_run_append (e : Dec) (xs ys : List Call) :
    e.run (xs ++ ys) = (((e.run xs).1.run ys).1, (e.run xs).2 ++ ((e.run xs).1.run ys).2) := by
  induction xs generalizing e with
  | nil => rfl
  | cons x xs ih => simp only [List.cons_append, Dec.run, ih, Prod.map, id]

theorem encrypt_short (key iv s : List U8) (h : s.length < 16) : encrypt key iv s = [] := by
  rw [encrypt, blocks_short s h]; rfl

theorem decrypt_short (key iv s : List U8) (h : s.length < 16) : decrypt key iv s = [] := by
  rw [decrypt, blocks_short s h]; rfl

theorem tail_eq (s : List U8) : tail s = s.drop (padCut 16 s.length) := by
  rw [tail, padCut]

theorem encrypt_tail (key iv s b : List U8) :
    encrypt key iv (s ++ b) = encrypt key iv s ++ encrypt key (lastBlock iv (encrypt key iv s)) (tail s ++ b) := by
  rw [lastBlock, blocks_encrypt, encrypt, encrypt, encrypt, blocks_append, encBlocks_append, List.flatten_append, tail_eq]

theorem decrypt_tail (key iv s b : List U8) :
    decrypt key iv (s ++ b) = decrypt key iv s ++ decrypt key (lastBlock iv s) (tail s ++ b) := by
  rw [lastBlock, decrypt, decrypt, decrypt, blocks_append, decBlocks_append, List.flatten_append, tail_eq]

theorem lastBlock_tail (iv s b : List U8) : lastBlock iv (s ++ b) = lastBlock (lastBlock iv s) (tail s ++ b) := by
  rw [lastBlock, lastBlock, lastBlock, blocks_append, getLastD_append, tail_eq]

theorem lastBlock_append (key iv s b : List U8) :
    lastBlock iv (encrypt key iv (s ++ b)) = lastBlock (lastBlock iv (encrypt key iv s))
      (encrypt key (lastBlock iv (encrypt key iv s)) (tail s ++ b)) := by
  rw [encrypt_tail]
  have h : (encrypt key iv s).length % 16 = 0 := by rw [encrypt_length]; omega
  have ht : tail (encrypt key iv s) = [] := by
    apply List.drop_of_length_le; omega
  rw [lastBlock_tail, ht, List.nil_append]

theorem enc_write_some (e : Enc) (key : List U8) (hk : e.key = some key) (b : List U8) :
    e.step (.write b) = ({ e with pending := tail (e.pending ++ b), iv := lastBlock e.iv (encrypt key e.iv (e.pending ++ b)) },
      .ok (encrypt key e.iv (e.pending ++ b))) := by
  rw [Enc.step]
  split
  · rename_i h
    rw [encrypt_short _ _ _ h, tail_short _ h]
    rfl
  · rw [hk]

/-- How the answers to two writes and to the joined write are related: the outputs are joined, or (only without a key) the
joined write fails with `e` and one of the two fails with `e`, and none of them returns a byte. -/
def Joined {ε : Type} (err : ε) (ra rb rab : Except ε (List U8)) : Prop :=
  (∃ x y, ra = .ok x ∧ rb = .ok y ∧ rab = .ok (x ++ y)) ∨
  (rab = .error err ∧ ((ra = .error err ∧ rb = .ok []) ∨ (ra = .ok [] ∧ rb = .error err) ∨ (ra = .error err ∧ rb = .error err)))

theorem enc_split (e : Enc) (a b : List U8) :
    ((e.step (.write a)).1.step (.write b)).1 = (e.step (.write (a ++ b))).1 ∧
    Joined .notInitialized (e.step (.write a)).2 ((e.step (.write a)).1.step (.write b)).2 (e.step (.write (a ++ b))).2 := by
  cases hk : e.key with
  | some key =>
    rw [enc_write_some e key hk, enc_write_some e key hk, enc_write_some _ key (by exact hk)]
    dsimp only
    rw [← List.append_assoc, tail_tail, ← lastBlock_append]
    exact ⟨rfl, Or.inl ⟨_, _, rfl, rfl, by rw [encrypt_tail]⟩⟩
  | none =>
    have step : ∀ (e : Enc) (b : List U8), e.key = none → e.step (.write b) =
        if (e.pending ++ b).length < 16 then ({ e with pending := e.pending ++ b }, .ok [])
        else ({ e with pending := tail (e.pending ++ b) }, .error .notInitialized) := by
      intro e b hk
      rw [Enc.step]
      split
      · rfl
      · rw [hk]
    rw [step e a hk, step e (a ++ b) hk]
    by_cases h1 : (e.pending ++ a).length < 16
    · rw [if_pos h1]
      dsimp only
      rw [step _ b (by exact hk)]
      dsimp only
      rw [List.append_assoc]
      split
      · exact ⟨rfl, Or.inl ⟨[], [], rfl, rfl, rfl⟩⟩
      · exact ⟨rfl, Or.inr ⟨rfl, Or.inr (Or.inl ⟨rfl, rfl⟩)⟩⟩
    · have h2 : ¬ (e.pending ++ (a ++ b)).length < 16 := by
        simp only [List.length_append] at h1 ⊢; omega
      rw [if_neg h1, if_neg h2]
      dsimp only
      rw [step _ b (by exact hk)]
      dsimp only
      rw [← List.append_assoc, ← tail_tail (e.pending ++ a) b]
      split
      · rename_i h3
        exact ⟨by rw [tail_short _ h3], Or.inr ⟨rfl, Or.inl ⟨rfl, rfl⟩⟩⟩
      · exact ⟨rfl, Or.inr ⟨rfl, Or.inr (Or.inr ⟨rfl, rfl⟩)⟩⟩

theorem dec_write_some (e : Dec) (key : List U8) (hk : e.key = some key) (hh : e.held = [] ∨ e.held.length = 16)
    (b : List U8) :
    e.step (.write b) = ({ e with
        pending := tail (e.pending ++ b)
        iv := lastBlock e.iv (e.pending ++ b)
        held := (e.held ++ decrypt key e.iv (e.pending ++ b)).drop
          ((e.held ++ decrypt key e.iv (e.pending ++ b)).length - 16) },
      .ok ((e.held ++ decrypt key e.iv (e.pending ++ b)).take
          ((e.held ++ decrypt key e.iv (e.pending ++ b)).length - 16))) := by
  rw [Dec.step]
  split
  · rename_i h
    rw [decrypt_short _ _ _ h, tail_short _ h, List.append_nil, lastBlock, blocks_short _ h]
    have : e.held.length - 16 = 0 := by
      rcases hh with h | h
      · rw [h]; rfl
      · omega
    rw [this]
    rfl
  · rw [hk]

/-- Cutting a list of blocks before its last block, after more blocks have been appended. -/
theorem cut_cut (p q : List U8) (hp : p.length % 16 = 0) (hq : q.length % 16 = 0) :
    (p.drop (p.length - 16) ++ q).drop ((p.drop (p.length - 16) ++ q).length - 16) = (p ++ q).drop ((p ++ q).length - 16) ∧
    p.take (p.length - 16) ++ (p.drop (p.length - 16) ++ q).take ((p.drop (p.length - 16) ++ q).length - 16) =
      (p ++ q).take ((p ++ q).length - 16) := by
  have e : p ++ q = p.take (p.length - 16) ++ (p.drop (p.length - 16) ++ q) := by
    rw [← List.append_assoc, List.take_append_drop]
  have hl : (p ++ q).length - 16 = (p.take (p.length - 16)).length + ((p.drop (p.length - 16) ++ q).length - 16) := by
    simp only [List.length_append, List.length_take, List.length_drop]
    omega
  constructor
  · conv => rhs; rw [hl, e]
    rw [← List.drop_drop, List.drop_left]
  · conv => rhs; rw [hl, e]
    rw [List.take_length_add_append]

theorem dec_split (e : Dec) (hiv : e.iv.length = 16) (hh : e.held = [] ∨ e.held.length = 16) (a b : List U8) :
    ((e.step (.write a)).1.step (.write b)).1 = (e.step (.write (a ++ b))).1 ∧
    Joined .notInitialized (e.step (.write a)).2 ((e.step (.write a)).1.step (.write b)).2 (e.step (.write (a ++ b))).2 := by
  cases hk : e.key with
  | some key =>
    have hh16 : e.held.length % 16 = 0 := by
      rcases hh with h | h
      · rw [h]; rfl
      · rw [h]
    have hliv : (lastBlock e.iv (e.pending ++ a)).length = 16 := by
      rw [lastBlock, List.getLastD_eq_getLast?]
      cases h : (blocks (e.pending ++ a)).getLast? with
      | none => exact hiv
      | some x => exact mem_blocks _ x (List.mem_of_getLast? h)
    have hl1 := decrypt_length key e.iv (e.pending ++ a) hiv
    have hl2 := decrypt_length key (lastBlock e.iv (e.pending ++ a)) (tail (e.pending ++ a) ++ b) hliv
    have hp : (e.held ++ decrypt key e.iv (e.pending ++ a)).length % 16 = 0 := by
      rw [List.length_append]; omega
    obtain ⟨c1, c2⟩ := cut_cut (e.held ++ decrypt key e.iv (e.pending ++ a))
      (decrypt key (lastBlock e.iv (e.pending ++ a)) (tail (e.pending ++ a) ++ b)) hp (by omega)
    rw [dec_write_some e key hk hh, dec_write_some e key hk hh, dec_write_some _ key (by exact hk) (by
      dsimp only
      generalize e.held ++ decrypt key e.iv (e.pending ++ a) = l at hp
      by_cases h0 : l = []
      · left; rw [h0]; rfl
      · right
        have := List.length_pos_iff.2 h0
        rw [List.length_drop]
        omega)]
    dsimp only
    rw [← List.append_assoc e.pending a b, tail_tail, ← lastBlock_tail, decrypt_tail key e.iv (e.pending ++ a) b,
      ← List.append_assoc e.held, c1]
    exact ⟨rfl, Or.inl ⟨_, _, rfl, rfl, by rw [c2]⟩⟩
  | none =>
    have step : ∀ (e : Dec) (b : List U8), e.key = none → e.step (.write b) =
        if (e.pending ++ b).length < 16 then ({ e with pending := e.pending ++ b }, .ok [])
        else ({ e with pending := tail (e.pending ++ b) }, .error .notInitialized) := by
      intro e b hk
      rw [Dec.step]
      split
      · rfl
      · rw [hk]
    rw [step e a hk, step e (a ++ b) hk]
    by_cases h1 : (e.pending ++ a).length < 16
    · rw [if_pos h1]
      dsimp only
      rw [step _ b (by exact hk)]
      dsimp only
      rw [List.append_assoc]
      split
      · exact ⟨rfl, Or.inl ⟨[], [], rfl, rfl, rfl⟩⟩
      · exact ⟨rfl, Or.inr ⟨rfl, Or.inr (Or.inl ⟨rfl, rfl⟩)⟩⟩
    · have h2 : ¬ (e.pending ++ (a ++ b)).length < 16 := by
        simp only [List.length_append] at h1 ⊢; omega
      rw [if_neg h1, if_neg h2]
      dsimp only
      rw [step _ b (by exact hk)]
      dsimp only
      rw [← List.append_assoc, ← tail_tail (e.pending ++ a) b]
      split
      · rename_i h3
        exact ⟨by rw [tail_short _ h3], Or.inr ⟨rfl, Or.inl ⟨rfl, rfl⟩⟩⟩
      · exact ⟨rfl, Or.inr ⟨rfl, Or.inr (Or.inr ⟨rfl, rfl⟩)⟩⟩

/-! ### Transfer -/

theorem errA_inj : Function.Injective (fun r : Except AESError (List U8) => r.mapError errA) := by
  intro r r' h
  cases r with
  | ok x => cases r' with
    | ok y => injection h with h; rw [h]
    | error e => cases h
  | error e => cases r' with
    | ok y => cases h
    | error e' => cases e <;> cases e' <;> first | rfl | cases h

theorem errD_inj : Function.Injective (fun r : Except DecipherError (List U8) => r.mapError errD) := by
  intro r r' h
  cases r with
  | ok x => cases r' with
    | ok y => injection h with h; rw [h]
    | error e => cases h
  | error e => cases r' with
    | ok y => cases h
    | error e' => injection h with h; rw [errD_injective _ _ h]

theorem joined_A (ra rb rab : Except AESError (List U8))
    (h : Joined .notInitialized (ra.mapError errA) (rb.mapError errA) (rab.mapError errA)) :
    Joined .NotInitialized ra rb rab := by
  rcases h with ⟨x, y, h1, h2, h3⟩ | ⟨h1, ⟨h2, h3⟩ | ⟨h2, h3⟩ | ⟨h2, h3⟩⟩
  · exact Or.inl ⟨x, y, errA_ok _ _ h1, errA_ok _ _ h2, errA_ok _ _ h3⟩
  · exact Or.inr ⟨errA_error _ .NotInitialized h1, Or.inl ⟨errA_error _ .NotInitialized h2, errA_ok _ _ h3⟩⟩
  · exact Or.inr ⟨errA_error _ .NotInitialized h1, Or.inr (Or.inl ⟨errA_ok _ _ h2, errA_error _ .NotInitialized h3⟩)⟩
  · exact Or.inr ⟨errA_error _ .NotInitialized h1,
      Or.inr (Or.inr ⟨errA_error _ .NotInitialized h2, errA_error _ .NotInitialized h3⟩)⟩

theorem joined_D (ra rb rab : Except DecipherError (List U8))
    (h : Joined .notInitialized (ra.mapError errD) (rb.mapError errD) (rab.mapError errD)) :
    Joined (.AES .NotInitialized) ra rb rab := by
  rcases h with ⟨x, y, h1, h2, h3⟩ | ⟨h1, ⟨h2, h3⟩ | ⟨h2, h3⟩ | ⟨h2, h3⟩⟩
  · exact Or.inl ⟨x, y, errD_ok _ _ h1, errD_ok _ _ h2, errD_ok _ _ h3⟩
  · exact Or.inr ⟨errD_error _ (.AES .NotInitialized) h1, Or.inl ⟨errD_error _ (.AES .NotInitialized) h2, errD_ok _ _ h3⟩⟩
  · exact Or.inr ⟨errD_error _ (.AES .NotInitialized) h1,
      Or.inr (Or.inl ⟨errD_ok _ _ h2, errD_error _ (.AES .NotInitialized) h3⟩)⟩
  · exact Or.inr ⟨errD_error _ (.AES .NotInitialized) h1,
      Or.inr (Or.inr ⟨errD_error _ (.AES .NotInitialized) h2, errD_error _ (.AES .NotInitialized) h3⟩)⟩

theorem crun_length (T : Target) (xs : List Call) (c c' : Cipher) (rs : List (Except AESError (List U8)))
    (h : crun T c xs = .ok (c', rs)) : rs.length = xs.length := by
  induction xs generalizing c rs with
  | nil =>
    rw [crun, pure_eq_ok] at h
    injection h with h
    injection h with _ h
    rw [← h]; rfl
  | cons x xs ih =>
    rw [crun] at h
    obtain ⟨⟨c1, r⟩, h1, h2⟩ := CbcHistory.bind_ok h
    obtain ⟨⟨c2, rs'⟩, h3, h4⟩ := CbcHistory.bind_ok h2
    dsimp only at h4
    rw [pure_eq_ok] at h4
    injection h4 with h4
    injection h4 with h5 h6
    subst h5
    rw [← h6, List.length_cons, List.length_cons, ih _ _ h3]

theorem drun_length (T : Target) (xs : List Call) (c c' : Decipher) (rs : List (Except DecipherError (List U8)))
    (h : drun T c xs = .ok (c', rs)) : rs.length = xs.length := by
  induction xs generalizing c rs with
  | nil =>
    rw [drun, pure_eq_ok] at h
    injection h with h
    injection h with _ h
    rw [← h]; rfl
  | cons x xs ih =>
    rw [drun] at h
    obtain ⟨⟨c1, r⟩, h1, h2⟩ := CbcHistory.bind_ok h
    obtain ⟨⟨c2, rs'⟩, h3, h4⟩ := CbcHistory.bind_ok h2
    dsimp only at h4
    rw [pure_eq_ok] at h4
    injection h4 with h4
    injection h4 with h5 h6
    subst h5
    rw [← h6, List.length_cons, List.length_cons, ih _ _ h3]

/-! ### C54 -/

/-- **C54.** Anywhere in any history of calls on a `Cipher`, two writes can be replaced by one write of the joined bytes: all
calls before and after answer the same, and the answer to the joined write is the two answers joined (without a key: it fails
exactly when one of the two fails, and no byte is returned). -/
theorem C54_cipher (T : Target) (iv : Vector U8 16) (pre post : List Call) (a b : List U8) :
    ∃ (c c' : Cipher) (rs ss : List (Except AESError (List U8))) (ra rb rab : Except AESError (List U8)),
      crun T (Cipher.new iv) (pre ++ .write a :: .write b :: post) = .ok (c, rs ++ ra :: rb :: ss) ∧
      crun T (Cipher.new iv) (pre ++ .write (a ++ b) :: post) = .ok (c', rs ++ rab :: ss) ∧
      rs.length = pre.length ∧ ss.length = post.length ∧ Joined .NotInitialized ra rb rab := by
  obtain ⟨c0, rs, h0, m0, _⟩ := crun_spec T pre (Cipher.new iv) ⟨none, iv.toList, []⟩ ⟨rfl, rfl, rfl, by simp⟩
  generalize (Enc.run ⟨none, iv.toList, []⟩ pre).1 = e at m0
  obtain ⟨c1, ra, h1, m1, a1⟩ := cstep_spec T c0 e m0 (.write a)
  obtain ⟨c2, rb, h2, m2, a2⟩ := cstep_spec T c1 _ m1 (.write b)
  obtain ⟨c3, rab, h3, m3, a3⟩ := cstep_spec T c0 e m0 (.write (a ++ b))
  obtain ⟨s1, s2⟩ := enc_split e a b
  obtain ⟨c4, ss, h4, _, a4⟩ := crun_spec T post c2 _ m2
  obtain ⟨c5, ss', h5, _, a5⟩ := crun_spec T post c3 _ m3
  rw [s1, ← a5] at a4
  have hss := (List.map_inj_right (fun _ _ h => errA_inj h)).1 a4
  subst hss
  rw [← a1, ← a2, ← a3] at s2
  exact ⟨c4, c5, rs, ss, ra, rb, rab, crun_append T h0 (crun_cons T h1 (crun_cons T h2 h4)),
    crun_append T h0 (crun_cons T h3 h5), crun_length T _ _ _ _ h0, crun_length T _ _ _ _ h4, joined_A _ _ _ s2⟩

/-- **C54.** The same for a `Decipher`. -/
theorem C54_decipher (T : Target) (iv : Vector U8 16) (pre post : List Call) (a b : List U8) :
    ∃ (c c' : Decipher) (rs ss : List (Except DecipherError (List U8))) (ra rb rab : Except DecipherError (List U8)),
      drun T (Decipher.new iv) (pre ++ .write a :: .write b :: post) = .ok (c, rs ++ ra :: rb :: ss) ∧
      drun T (Decipher.new iv) (pre ++ .write (a ++ b) :: post) = .ok (c', rs ++ rab :: ss) ∧
      rs.length = pre.length ∧ ss.length = post.length ∧ Joined (.AES .NotInitialized) ra rb rab := by
  obtain ⟨c0, rs, h0, m0, _⟩ := drun_spec T pre (Decipher.new iv) ⟨none, iv.toList, [], []⟩
    ⟨rfl, rfl, rfl, by simp, rfl, Or.inl rfl⟩
  generalize (Dec.run ⟨none, iv.toList, [], []⟩ pre).1 = e at m0
  obtain ⟨c1, ra, h1, m1, a1⟩ := dstep_spec T c0 e m0 (.write a)
  obtain ⟨c2, rb, h2, m2, a2⟩ := dstep_spec T c1 _ m1 (.write b)
  obtain ⟨c3, rab, h3, m3, a3⟩ := dstep_spec T c0 e m0 (.write (a ++ b))
  obtain ⟨s1, s2⟩ := dec_split e (by rw [← m0.2.1]; simp) m0.2.2.2.2.2 a b
  obtain ⟨c4, ss, h4, _, a4⟩ := drun_spec T post c2 _ m2
  obtain ⟨c5, ss', h5, _, a5⟩ := drun_spec T post c3 _ m3
  rw [s1, ← a5] at a4
  have hss := (List.map_inj_right (fun _ _ h => errD_inj h)).1 a4
  subst hss
  rw [← a1, ← a2, ← a3] at s2
  exact ⟨c4, c5, rs, ss, ra, rb, rab, drun_append T h0 (drun_cons T h1 (drun_cons T h2 h4)),
    drun_append T h0 (drun_cons T h3 h5), drun_length T _ _ _ _ h0, drun_length T _ _ _ _ h4, joined_D _ _ _ s2⟩

/-! ### C55 -/

/-- The key of the last `init` with a key of a valid size in a history. -/
def lastKey : List Call → Option (List U8)
  | [] => none
  | .init key :: xs => if key.length = 16 ∨ key.length = 24 ∨ key.length = 32 then (lastKey xs).or (some key) else lastKey xs
  | _ :: xs => lastKey xs

theorem enc_run_key (xs : List Call) (e : Enc) : (e.run xs).1.key = (lastKey xs).or e.key := by
  induction xs generalizing e with
  | nil => simp [Enc.run, lastKey]
  | cons x xs ih =>
    rw [Enc.run]
    simp only [Prod.map, id, ih]
    cases x with
    | init key =>
      rw [Enc.step, lastKey]
      by_cases hv : key.length = 16 ∨ key.length = 24 ∨ key.length = 32
      · rw [if_pos (show validKey key from hv), if_pos hv]; cases lastKey xs <;> rfl
      · rw [if_neg (show ¬ validKey key from hv), if_neg hv]
    | write b =>
      rw [lastKey, Enc.step]
      · split
        · rfl
        · split <;> simp_all
      · intro k h; cases h
    | flush =>
      rw [lastKey, Enc.step]
      · split <;> simp_all
      · intro k h; cases h

theorem dec_run_key (xs : List Call) (e : Dec) : (e.run xs).1.key = (lastKey xs).or e.key := by
  induction xs generalizing e with
  | nil => simp [Dec.run, lastKey]
  | cons x xs ih =>
    rw [Dec.run]
    simp only [Prod.map, id, ih]
    cases x with
    | init key =>
      rw [Dec.step, lastKey]
      by_cases hv : key.length = 16 ∨ key.length = 24 ∨ key.length = 32
      · rw [if_pos (show validKey key from hv), if_pos hv]; cases lastKey xs <;> rfl
      · rw [if_neg (show ¬ validKey key from hv), if_neg hv]
    | write b =>
      rw [lastKey, Dec.step]
      · split
        · rfl
        · split <;> simp_all
      · intro k h; cases h
    | flush =>
      rw [lastKey, Dec.step]
      · split
        · rfl
        · split <;> rfl
      · intro k h; cases h

/-- A call that should have no effect after the history `pre`: a write of no bytes, `init` with a key of a wrong size, `init`
with the key that is in use anyway. -/
def Idle (pre : List Call) (x : Call) : Prop :=
  x = .write [] ∨ (∃ key : List U8, x = .init key ∧ key.length ≠ 16 ∧ key.length ≠ 24 ∧ key.length ≠ 32) ∨
  (∃ key : List U8, x = .init key ∧ lastKey pre = some key)

theorem lastKey_valid (xs : List Call) (key : List U8) (h : lastKey xs = some key) : validKey key := by
  induction xs with
  | nil => cases h
  | cons x xs ih =>
    cases x with
    | init k =>
      rw [lastKey] at h
      split at h
      · rename_i hv
        cases hx : lastKey xs with
        | none => rw [hx] at h; simp at h; subst h; exact hv
        | some k' => rw [hx] at h; simp at h; subst h; exact ih hx
      · exact ih h
    | write b => exact ih h
    | flush => exact ih h

/-- **C55.** Anywhere in any history of calls on a `Cipher`, a write of no bytes, a failing `init` and an `init` with the key in
use change no answer of the other calls. -/
theorem C55_cipher (T : Target) (iv : Vector U8 16) (pre post : List Call) (x : Call) (hx : Idle pre x) :
    ∃ (c c' : Cipher) (rs ss : List (Except AESError (List U8))) (r : Except AESError (List U8)),
      crun T (Cipher.new iv) (pre ++ x :: post) = .ok (c, rs ++ r :: ss) ∧
      crun T (Cipher.new iv) (pre ++ post) = .ok (c', rs ++ ss) ∧ rs.length = pre.length ∧
      (r = .ok [] ∨ r = .error .InvalidKeySize) := by
  obtain ⟨c0, rs, h0, m0, _⟩ := crun_spec T pre (Cipher.new iv) ⟨none, iv.toList, []⟩ ⟨rfl, rfl, rfl, by simp⟩
  have hkey := enc_run_key pre ⟨none, iv.toList, []⟩
  rw [Option.or_none] at hkey
  generalize (Enc.run ⟨none, iv.toList, []⟩ pre).1 = e at m0 hkey
  obtain ⟨c1, r, h1, m1, a1⟩ := cstep_spec T c0 e m0 x
  have key : (e.step x).1 = e ∧ ((e.step x).2 = .ok [] ∨ (e.step x).2 = .error .invalidKeySize) := by
    rcases hx with rfl | ⟨key, rfl, hk⟩ | ⟨key, rfl, hk⟩
    · rw [Enc.step, if_pos (by rw [List.append_nil]; exact m0.2.2.2), List.append_nil]
      exact ⟨rfl, Or.inl rfl⟩
    · rw [Enc.step, if_neg (by rintro (h | h | h) <;> simp_all)]
      exact ⟨rfl, Or.inr rfl⟩
    · rw [Enc.step, if_pos (lastKey_valid _ _ hk), ← hk, ← hkey]
      exact ⟨rfl, Or.inl rfl⟩
  rw [key.1] at m1
  obtain ⟨c2, ss, h2, _, a2⟩ := crun_spec T post c1 _ m1
  obtain ⟨c3, ss', h3, _, a3⟩ := crun_spec T post c0 _ m0
  rw [← a3] at a2
  have hss := (List.map_inj_right (fun _ _ h => errA_inj h)).1 a2
  subst hss
  refine ⟨c2, c3, rs, ss, r, crun_append T h0 (crun_cons T h1 h2), crun_append T h0 h3, crun_length T _ _ _ _ h0, ?_⟩
  rcases key.2 with h | h
  · exact Or.inl (errA_ok _ _ (a1.trans h))
  · exact Or.inr (errA_error _ .InvalidKeySize (a1.trans h))

/-- **C55.** The same for a `Decipher`. -/
theorem C55_decipher (T : Target) (iv : Vector U8 16) (pre post : List Call) (x : Call) (hx : Idle pre x) :
    ∃ (c c' : Decipher) (rs ss : List (Except DecipherError (List U8))) (r : Except DecipherError (List U8)),
      drun T (Decipher.new iv) (pre ++ x :: post) = .ok (c, rs ++ r :: ss) ∧
      drun T (Decipher.new iv) (pre ++ post) = .ok (c', rs ++ ss) ∧ rs.length = pre.length ∧
      (r = .ok [] ∨ r = .error (.AES .InvalidKeySize)) := by
  obtain ⟨c0, rs, h0, m0, _⟩ := drun_spec T pre (Decipher.new iv) ⟨none, iv.toList, [], []⟩
    ⟨rfl, rfl, rfl, by simp, rfl, Or.inl rfl⟩
  have hkey := dec_run_key pre ⟨none, iv.toList, [], []⟩
  rw [Option.or_none] at hkey
  generalize (Dec.run ⟨none, iv.toList, [], []⟩ pre).1 = e at m0 hkey
  obtain ⟨c1, r, h1, m1, a1⟩ := dstep_spec T c0 e m0 x
  have key : (e.step x).1 = e ∧ ((e.step x).2 = .ok [] ∨ (e.step x).2 = .error .invalidKeySize) := by
    rcases hx with rfl | ⟨key, rfl, hk⟩ | ⟨key, rfl, hk⟩
    · rw [Dec.step, if_pos (by rw [List.append_nil]; exact m0.2.2.2.1), List.append_nil]
      exact ⟨rfl, Or.inl rfl⟩
    · rw [Dec.step, if_neg (by rintro (h | h | h) <;> simp_all)]
      exact ⟨rfl, Or.inr rfl⟩
    · rw [Dec.step, if_pos (lastKey_valid _ _ hk), ← hk, ← hkey]
      exact ⟨rfl, Or.inl rfl⟩
  rw [key.1] at m1
  obtain ⟨c2, ss, h2, _, a2⟩ := drun_spec T post c1 _ m1
  obtain ⟨c3, ss', h3, _, a3⟩ := drun_spec T post c0 _ m0
  rw [← a3] at a2
  have hss := (List.map_inj_right (fun _ _ h => errD_inj h)).1 a2
  subst hss
  refine ⟨c2, c3, rs, ss, r, drun_append T h0 (drun_cons T h1 h2), drun_append T h0 h3, drun_length T _ _ _ _ h0, ?_⟩
  rcases key.2 with h | h
  · exact Or.inl (errD_ok _ _ (a1.trans h))
  · exact Or.inr (errD_error _ (.AES .InvalidKeySize) (a1.trans h))

/-- An `init` with the same key again in the middle of a message, after a failed `init`. -/
example (T : Target) (iv : Vector U8 16) (b : List U8) (post : List Call) :=
  And.intro (C55_cipher T iv [.init (List.replicate 16 1), .init (List.replicate 24 2), .write b, .init [3]] post (.init (List.replicate 24 2))
      (Or.inr (Or.inr ⟨_, rfl, by simp [lastKey]⟩)))
    (C55_decipher T iv [.init (List.replicate 16 1), .init (List.replicate 24 2), .write b, .init [3]] post (.init (List.replicate 24 2))
      (Or.inr (Or.inr ⟨_, rfl, by simp [lastKey]⟩)))

/-- An `init` with the same key again in the middle of a message, after a failed `init`, is idle. -/
example (b : List U8) : Idle [.init (List.replicate 16 1), .init (List.replicate 24 2), .write b, .init [3]]
    (.init (List.replicate 24 2)) :=
  Or.inr (Or.inr ⟨_, rfl, by simp [lastKey]⟩)

end Verif.Props.CbcSplit
