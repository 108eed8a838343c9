import Verif.Props.Aes
import Verif.Proof.KeyRecovery
import Verif.Spec.KeySchedule
import Verif.Proof.Sha256Stream
import Mathlib.Data.List.GetD
import Mathlib.Logic.ExistsUnique

/-! Property C116: a part of the key schedule as long as the key is as good as the key. -/

namespace Verif.Props.KeySchedule
open Verif Verif.Aes Spec.Aes Verif.Props.Aes

theorem xorWord_cancel (a b : Word4) : xorWord (xorWord a b) b = a := by
  funext r
  simp [xorWord, BitVec.xor_assoc]

theorem keyWord_step (nk : Nat) (key : List U8) (i : Nat) (hi : 1 ≤ nk) : keyWord nk key (i + nk) =
    xorWord (keyWord nk key i) (summand nk (i + nk) (keyWord nk key (i + nk - 1))) := by
  rw [keyWord, dif_neg (by omega), Nat.add_sub_cancel]
  rfl

/-- `w` are the words from place `i` on. -/
abbrev At (nk : Nat) (key : List U8) (i : Nat) (w : Nat → Word4) : Prop := ∀ j < nk, w j = keyWord nk key (i + j)

theorem at_back (nk : Nat) (hnk : 2 ≤ nk) (key : List U8) (i : Nat) (w : Nat → Word4) :
    At nk key (i + 1) w ↔ At nk key i (back nk i w) := by
  constructor
  · intro h j hj
    cases j with
    | zero =>
      rw [back, h (nk - 1) (by omega), h (nk - 2) (by omega), show i + 1 + (nk - 1) = i + nk by omega,
        show i + 1 + (nk - 2) = i + nk - 1 by omega, keyWord_step nk key i (by omega), xorWord_cancel]
      rfl
    | succ j => rw [back, h j (by omega), show i + 1 + j = i + (j + 1) by omega]
  · intro h j hj
    by_cases hl : j + 1 < nk
    · have := h (j + 1) hl
      rw [back] at this
      rw [this, show i + (j + 1) = i + 1 + j by omega]
    · have hj : j = nk - 1 := by omega
      have h0 := h 0 (by omega)
      have h1 := h (nk - 2 + 1) (by omega)
      rw [back.eq_def] at h0 h1
      dsimp only at h0 h1
      rw [hj, show i + 1 + (nk - 1) = i + nk by omega, keyWord_step nk key i (by omega)]
      rw [show i + (nk - 2 + 1) = i + nk - 1 by omega] at h1
      rw [Nat.add_zero] at h0
      rw [← h1, ← h0, xorWord_cancel]

theorem at_backAll (nk : Nat) (hnk : 2 ≤ nk) (key : List U8) (i : Nat) (w : Nat → Word4) :
    At nk key i w ↔ At nk key 0 (backAll nk i w) := by
  induction i generalizing w with
  | zero => rfl
  | succ i ih => rw [at_back nk hnk, ih]; rfl

theorem at_zero (nk : Nat) (key : List U8) (hk : key.length = 4 * nk) (w : Nat → Word4) :
    At nk key 0 w ↔ key = (List.range (4 * nk)).map fun k => w (k / 4) (Fin.ofNat 4 (k % 4)) := by
  constructor
  · intro h
    apply List.ext_getElem (by simp [hk])
    intro k h1 h2
    have := h (k / 4) (by omega)
    rw [keyWord, dif_pos (by omega)] at this
    simp only [List.getElem_map, List.getElem_range, this]
    simp only [Spec.byteAt, Fin.ofNat, Nat.zero_add, Nat.mod_mod, show 4 * (k / 4) + k % 4 = k by omega]
    simp [h1]
  · intro h j hj
    rw [keyWord, dif_pos (by omega), Nat.zero_add]
    funext r
    rw [Spec.byteAt, h, List.getD_eq_getElem?_getD, List.getElem?_eq_getElem (by simp; omega)]
    simp only [List.getElem_map, List.getElem_range, Option.getD_some]
    rw [show (4 * j + r.val) / 4 = j by omega, show Fin.ofNat 4 ((4 * j + r.val) % 4) = r by
      apply Fin.ext; simp [Fin.ofNat]]

/-! ### Octets -/

theorem octets_length (ws : List U32) : (octets ws).length = 4 * ws.length := by
  induction ws with
  | nil => rfl
  | cons w ws ih =>
    rw [octets] at ih ⊢
    rw [List.flatMap_cons, List.length_append, ih]
    simp [Spec.beBytes]
    omega

theorem octets_byte (ws : List U32) (j : Nat) (hj : j < ws.length) (r : Fin 4) :
    Spec.byteAt (octets ws) (4 * j + r) = wordByte ws[j] r := by
  induction ws generalizing j with
  | nil => simp at hj
  | cons w ws ih =>
    have h4 : (Spec.beBytes 4 w.toNat).length = 4 := by simp [Spec.beBytes]
    rw [octets, List.flatMap_cons, Spec.byteAt]
    cases j with
    | zero =>
      rw [List.getD_append _ _ _ _ (by rw [h4]; omega)]
      rw [Verif.Sha256.beBytes4]
      refine forall_fin4 (P := fun r => List.getD [BitVec.ofNat 8 (w.toNat / 2 ^ 24), BitVec.ofNat 8 (w.toNat / 2 ^ 16),
        BitVec.ofNat 8 (w.toNat / 2 ^ 8), BitVec.ofNat 8 w.toNat] (4 * 0 + r.val) 0 = wordByte w r) ?_ ?_ ?_ ?_ r
      · exact (Verif.Sha256.byte_shift w 24).symm
      · exact (Verif.Sha256.byte_shift w 16).symm
      · exact (Verif.Sha256.byte_shift w 8).symm
      · exact ((Verif.Sha256.byte_shift w 0).trans (by rw [Nat.pow_zero, Nat.div_one]; rfl)).symm
    | succ j =>
      rw [List.getD_append_right _ _ _ _ (by rw [h4]; omega), h4, show 4 * (j + 1) + r.val - 4 = 4 * j + r.val by omega]
      exact ih j (by simpa using hj)

theorem octets_window (ws : List U32) (i n : Nat) : octets ((ws.drop i).take n) = ((octets ws).drop (4 * i)).take (4 * n) := by
  have hd : ∀ (i : Nat) (ws : List U32), octets (ws.drop i) = (octets ws).drop (4 * i) := by
    intro i
    induction i with
    | zero => intro ws; simp
    | succ i ih =>
      intro ws
      cases ws with
      | nil => simp [octets]
      | cons w ws =>
        have h4 : (Spec.beBytes 4 w.toNat).length = 4 := by simp [Spec.beBytes]
        rw [List.drop_succ_cons, ih, show octets (w :: ws) = Spec.beBytes 4 w.toNat ++ octets ws from rfl,
          show 4 * (i + 1) = (Spec.beBytes 4 w.toNat).length + 4 * i by rw [h4]; omega, List.drop_length_add_append]
  have ht : ∀ (n : Nat) (ws : List U32), octets (ws.take n) = (octets ws).take (4 * n) := by
    intro n
    induction n with
    | zero => intro ws; simp [octets]
    | succ n ih =>
      intro ws
      cases ws with
      | nil => simp [octets]
      | cons w ws =>
        have h4 : (Spec.beBytes 4 w.toNat).length = 4 := by simp [Spec.beBytes]
        rw [List.take_succ_cons, show ∀ x, octets (w :: x) = Spec.beBytes 4 w.toNat ++ octets x from fun _ => rfl, ih,
          show octets (w :: ws) = Spec.beBytes 4 w.toNat ++ octets ws from rfl,
          show 4 * (n + 1) = (Spec.beBytes 4 w.toNat).length + 4 * n by rw [h4]; omega, List.take_length_add_append]
  rw [ht, hd]

/-! ### C116 -/

theorem at_window (nk n : Nat) (key : List U8) (ws : List U32) (h : IsSchedule nk key n ws) (i : Nat) (hi : i + nk ≤ n) :
    At nk key i (fun j r => Spec.byteAt (octets ((ws.drop i).take nk)) (4 * j + r)) := by
  intro j hj
  have hw : j < ((ws.drop i).take nk).length := by simp [h.1]; omega
  funext r
  dsimp only
  rw [octets_byte _ j hw]
  have := h.2 (i + j) (by rw [h.1]; omega)
  simp only [List.getElem_take, List.getElem_drop]
  exact congrFun this r

/-- **C116.** After `init` with a key, `4 * (Nr + 1)` words are kept in memory, and any `Nk` of them that follow each other, with
their place, give the key back by a simple computation. -/
theorem C116_key (T : Target) (self self' : AES) (key : List U8) (h : self.init T key = .ok (self', .ok ())) :
    ∃ ws, self'.round_keys = some ws ∧ ws.length = 4 * (key.length / 4 + 7) ∧
      ∀ i, i + key.length / 4 ≤ ws.length →
        keyFrom (key.length / 4) i (((octets ws).drop (4 * i)).take key.length) = key := by
  obtain ⟨hk, hc, ws, e, hs⟩ := holds_of_init h
  rw [hc] at hs
  refine ⟨ws, e, hs.1, fun i hi => ?_⟩
  have hlen : key.length = 4 * (key.length / 4) := by omega
  have h1 := at_window _ _ _ _ hs i (by rw [← hs.1]; exact hi)
  rw [octets_window, ← hlen] at h1
  exact ((at_zero _ key hlen _).mp ((at_backAll _ (by omega) key i _).mp h1)).symm

/-- **C116.** And a part of the key schedule shorter than the key does not give it away: at every place all values of `Nk` words
are possible, each of them for exactly one key, so that whoever lacks some octets of them has to guess these. -/
theorem C116_each (T : Target) (self : AES) (nk : Nat) (hnk : nk = 4 ∨ nk = 6 ∨ nk = 8) (i : Nat) (hi : i + nk ≤ 4 * (nk + 7))
    (value : List U8) (hv : value.length = 4 * nk) :
    ∃! key : List U8, key.length = 4 * nk ∧ ∃ self' ws, self.init T key = .ok (self', .ok ()) ∧ self'.round_keys = some ws ∧
      ((octets ws).drop (4 * i)).take (4 * nk) = value := by
  have hl : (keyFrom nk i value).length = 4 * nk := by simp [keyFrom]
  refine ⟨keyFrom nk i value, ⟨hl, ?_⟩, ?_⟩
  · obtain ⟨self', e, hh⟩ := init_valid T self (keyFrom nk i value) (by rw [hl]; omega)
    obtain ⟨_, hc, ws, e', hs⟩ := hh
    rw [hc, hl, Nat.mul_div_cancel_left _ (by decide)] at hs
    refine ⟨self', ws, e, e', ?_⟩
    have h1 := at_window _ _ _ _ hs i (by omega)
    have h2 : At nk (keyFrom nk i value) i (fun j r => Spec.byteAt value (4 * j + r)) :=
      (at_backAll _ (by omega) _ i _).mpr ((at_zero _ _ hl _).mpr rfl)
    rw [octets_window] at h1
    have hl' : (((octets ws).drop (4 * i)).take (4 * nk)).length = 4 * nk := by
      rw [List.length_take, List.length_drop, octets_length, hs.1]
      omega
    apply List.ext_getElem (by rw [hl', hv])
    intro k hk1 hk2
    have := congrFun ((h1 (k / 4) (by omega)).trans (h2 (k / 4) (by omega)).symm) ⟨k % 4, by omega⟩
    simp only [Spec.byteAt, show 4 * (k / 4) + k % 4 = k by omega] at this
    rwa [List.getD_eq_getElem _ _ hk1, List.getD_eq_getElem _ _ hk2] at this
  · rintro key ⟨hk, self', ws, e, e', hw⟩
    obtain ⟨ws', e'', _, hh⟩ := C116_key T self self' key e
    have : ws' = ws := by rw [e'] at e''; exact (Option.some.inj e'').symm
    subst this
    have := hh i (by omega)
    rw [hk, Nat.mul_div_cancel_left _ (by decide), hw] at this
    exact this.symm

/-- With a key of 16 octets the last round key, words 40 to 43, is enough; with one of 32 octets the last two. -/
example (T : Target) (key : List U8) (hk : key.length = 16) : ∃ self' ws, AES.new.init T key = .ok (self', .ok ()) ∧
    self'.round_keys = some ws ∧ ws.length = 44 ∧ keyFrom 4 40 (((octets ws).drop 160).take 16) = key := by
  obtain ⟨self', e, _⟩ := init_valid T AES.new key (.inl hk)
  obtain ⟨ws, e', hl, hh⟩ := C116_key T _ _ _ e
  rw [hk] at hl hh
  exact ⟨self', ws, e, e', hl, hh 40 (by rw [hl]; decide)⟩

/-- Zeros may be the last two round keys of a key of 32 octets. -/
example (T : Target) : ∃! key : List U8, key.length = 32 ∧ ∃ self' ws, AES.new.init T key = .ok (self', .ok ()) ∧
    self'.round_keys = some ws ∧ ((octets ws).drop 208).take 32 = List.replicate 32 0 :=
  C116_each T AES.new 8 (by decide) 52 (by decide) _ (by simp)

end Verif.Props.KeySchedule
