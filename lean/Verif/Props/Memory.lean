import Verif.Proof.Heap
import Verif.Proof.HeapAlike
import Verif.Props.Growing
import Mathlib.Tactic.Ring

/-! C104: how much memory `Scrypt::derive` takes. -/

namespace Verif.Props.Memory
open Verif Verif.Scrypt Verif.Growing Verif.Heap

/-- The lanes and the tables of scrypt in octets: `n` saved states, the state, the state that is mixed with a saved one, and for each of the `p` lanes
what it comes from and what it is. -/
def octetsHeld (r n p : Nat) : Nat := 128 * r * (n + 2 * p + 2)

/-- The `Vec`s that hold them: one for each saved state and one for each block of 64 octets. `lists` is 1 if the list of the lanes
is mixed in place, and 2 if a second list is made. -/
def headersHeld (r n p lists : Nat) : Nat := n + 2 * r * (n + p + 2) + lists * p

/-- The working memory of mixing one state: a block, and then either another block or the lists by which the blocks are put in order. -/
def scratch (w r : Nat) : Nat := 64 + max 64 (3 * r * w)

/-- The number of lists of lanes. -/
def lists (inPlace : Bool) : Nat := if inPlace then 1 else 2

theorem deriveBytes_eq (T : Target) (inPlace : Bool) (r n p : Nat) :
    deriveBytes T inPlace r n p = octetsHeld r n p + headersHeld r n p (lists inPlace) * T.vecSize + scratch T.vecSize r := by
  rw [deriveBytes, roBytes, mixBytes, laneBytes, octetsHeld, headersHeld, scratch, lists]
  generalize T.vecSize = w
  generalize max 64 (3 * r * w) = m
  cases inPlace
  · rw [if_neg (by decide), if_neg (by decide)]; ring
  · rw [if_pos rfl, if_pos rfl]; ring

theorem joinBytes_eq (T : Target) (r p : Nat) :
    joinBytes T r p = 640 * r * p + (1 + 2 * r) * p * T.vecSize := by
  rw [joinBytes, laneBytes]
  generalize T.vecSize = w
  ring

theorem join_le (T : Target) (inPlace : Bool) (r n p : Nat) (h : 3 * p ≤ n + 2) : joinBytes T r p ≤ deriveBytes T inPlace r n p := by
  rw [joinBytes_eq, deriveBytes_eq, octetsHeld, headersHeld]
  have h1 : 640 * r * p ≤ 128 * r * (n + 2 * p + 2) := by
    rw [show 640 * r * p = 128 * r * (5 * p) by ring]
    exact Nat.mul_le_mul_left _ (by omega)
  have h2 : (1 + 2 * r) * p * T.vecSize ≤ (n + 2 * r * (n + p + 2) + lists inPlace * p) * T.vecSize := by
    apply Nat.mul_le_mul_right
    have h3 : 2 * r * p ≤ 2 * r * (n + p + 2) := Nat.mul_le_mul_left _ (by omega)
    have h4 : p ≤ lists inPlace * p := Nat.le_mul_of_pos_left _ (by cases inPlace <;> decide)
    rw [Nat.add_mul]
    omega
  omega

/-- C104: the heap does not change what `derive` does: for all parameters and all inputs, the result is that of the model with growing vectors (C98), which is
that of the model itself, or a panic over the capacity. -/
theorem C104_same (T : Target) (G : Policy) (lower : Nat → Nat) (hl : ∀ n, lower n ≤ n) (inPlace : Bool) (s : Scrypt.Scrypt) (P S out : List U8)
    (before : Heap) :
    (Heap.derive T G lower inPlace s P S out before).map Prod.fst = Growing.derive T G lower s P S out ∧
    ((Heap.derive T G lower inPlace s P S out before).map Prod.fst = s.derive T P S out ∨
      (Heap.derive T G lower inPlace s P S out before).map Prod.fst = .error .capacity) := by
  have h := derive_erases T G lower inPlace s P S out before
  rw [h]
  exact ⟨rfl, derive_only T G lower hl s P S out⟩

/-- C104: a call that returns leaves the heap as large as it was, whatever the outcome; and one that refuses its parameters takes nothing. -/
theorem C104_nothing_left (T : Target) (G : Policy) (lower : Nat → Nat) (hl : ∀ n, lower n ≤ n) (inPlace : Bool) (r n p : Nat) (P S out out' : List U8)
    (res : Except ScryptError Unit) (hmem : p * 128 * r ≤ T.isizeMax) (L : Int) (after : Heap)
    (h : Heap.derive T G lower inPlace (.new r n p) P S out ⟨L, L⟩ = .ok ((out', res), after)) :
    after.live = L ∧ (res ≠ .ok () → after.peak = L) := by
  have bad : ∀ e, (Pure.pure (out, Except.error e) : H (List U8 × Except ScryptError Unit)) ⟨L, L⟩ = .ok ((out', res), after) →
      after.live = L ∧ (res ≠ .ok () → after.peak = L) := by
    intro e he
    cases he
    exact ⟨rfl, fun _ => rfl⟩
  by_cases hr : r < 1
  · unfold Heap.derive at h
    rw [if_pos (show (Scrypt.new r n p).r < 1 from hr)] at h
    exact bad _ h
  by_cases hn : n < 1
  · unfold Heap.derive at h
    rw [if_neg (show ¬ (Scrypt.new r n p).r < 1 from hr), if_pos (show (Scrypt.new r n p).n < 1 from hn)] at h
    exact bad _ h
  have hsub : T.sub n 1 = .ok (n - 1) := T.sub_ok (by omega)
  have hlift : ∀ {β : Type} (g : Nat → H β) (st : Heap), (Heap.lift (T.sub n 1) >>= g) st = g (n - 1) st := by
    intro β g st; rw [hsub]; rfl
  by_cases h2 : (n - 1) &&& n = 0
  · by_cases hp : p < 1
    · unfold Heap.derive at h
      rw [if_neg (show ¬ (Scrypt.new r n p).r < 1 from hr), if_neg (show ¬ (Scrypt.new r n p).n < 1 from hn)] at h
      change (Heap.lift (T.sub n 1) >>= _) _ = _ at h
      rw [hlift, if_neg (show ¬ n - 1 &&& (Scrypt.new r n p).n ≠ 0 from fun h => h h2), if_pos (show (Scrypt.new r n p).p < 1 from hp)] at h
      exact bad _ h
    · have hpow := (n_pow n (by omega)).mp h2
      have key := derive_heap T G lower hl inPlace (.new r n p) P S out (by show 1 ≤ r; omega) hpow (by show 1 ≤ p; omega) hmem L L (Int.le_refl _)
      refine ⟨(key _ _ h).1, fun hne => absurd ?_ hne⟩
      have h3 := derive_erases T G lower inPlace (.new r n p) P S out ⟨L, L⟩
      rw [h] at h3
      rcases derive_len T G lower (.new r n p) P S out (by show 1 ≤ r; omega) hpow (by show 1 ≤ p; omega) hmem with ⟨⟨e, he⟩, he'⟩ | ⟨salt, _, _, h4⟩
      · rw [← h3, he] at he'; cases he'
      · rw [h4] at h3
        cases h5 : VecU8.collect T G lower salt with
        | error e => rw [h5] at h3; cases h3
        | ok w =>
          rw [h5, ok_bind] at h3
          cases h6 : Pbkdf2.pbkdf2_sha256 T P w.data PBKDF2_ROUNDS out with
          | error e => rw [h6] at h3; cases h3
          | ok o =>
            rw [h6] at h3
            cases h3
            rfl
  · unfold Heap.derive at h
    rw [if_neg (show ¬ (Scrypt.new r n p).r < 1 from hr), if_neg (show ¬ (Scrypt.new r n p).n < 1 from hn)] at h
    change (Heap.lift (T.sub n 1) >>= _) _ = _ at h
    rw [hlift, if_pos (show n - 1 &&& (Scrypt.new r n p).n ≠ 0 from h2)] at h
    exact bad _ h

/-- C104: where C16 says that `derive` returns the key of RFC 7914, and `3 * p ≤ n + 2` (always, if `p` is 1), this is exactly what it takes at most,
on top of what is taken before: `128 * r` octets for each of `n + 2 * p + 2` states, the vectors that hold them, and some working memory. -/
theorem C104_peak (T : Target) (G : Policy) (lower : Nat → Nat) (hl : ∀ n, lower n ≤ n) (inPlace : Bool) (r n p : Nat) (P S out : List U8) (hr : 1 ≤ r)
    (hn : ∃ k, n = 2 ^ k) (hp : 1 ≤ p) (hmem : p * 128 * r ≤ T.isizeMax) (htab : n * T.vecSize ≤ T.isizeMax) (hP : 8 * P.length < 2 ^ T.bits)
    (hS : 8 * (64 + S.length + 4) < 2 ^ T.bits) (hB : 8 * (64 + p * 128 * r + 4) < 2 ^ T.bits) (hout : out.length ≤ T.isizeMax)
    (hnp : 3 * p ≤ n + 2) (L : Int) :
    Heap.derive T G lower inPlace (.new r n p) P S out ⟨L, L⟩ = .ok ((Spec.Scrypt.scrypt P S n r p out.length, .ok ()),
      ⟨L, L + (octetsHeld r n p + headersHeld r n p (lists inPlace) * T.vecSize + scratch T.vecSize r : Nat)⟩) := by
  have h1 := derive_erases T G lower inPlace (.new r n p) P S out ⟨L, L⟩
  rw [Verif.Props.Growing.C98_scrypt T G lower hl r n p P S out hr hn hp hmem htab hP hS hB hout] at h1
  have key := derive_heap T G lower hl inPlace (.new r n p) P S out hr hn hp hmem L L (Int.le_refl _)
  cases h : Heap.derive T G lower inPlace (.new r n p) P S out ⟨L, L⟩ with
  | error e => rw [h] at h1; cases h1
  | ok q =>
    obtain ⟨a, ⟨L', P'⟩⟩ := q
    rw [h] at h1
    injection h1 with h1
    change a = _ at h1
    subst h1
    obtain ⟨k1, k2, k3, -⟩ := key _ _ h
    change L' = L at k1
    change max L (L + (deriveBytes T inPlace r n p : Nat)) ≤ P' at k2
    change P' ≤ max L (L + max (deriveBytes T inPlace r n p : Nat) (joinBytes T r p : Nat)) at k3
    have hj := join_le T inPlace r n p hnp
    rw [← deriveBytes_eq, k1]
    have : P' = L + (deriveBytes T inPlace r n p : Nat) := by omega
    rw [this]

/-- C104: and with any number of lanes: at least as much, so never less than the `128 * r * n` octets that make scrypt memory-hard; and at most as
much, or as joining the lanes takes. -/
theorem C104_bounds (T : Target) (G : Policy) (lower : Nat → Nat) (hl : ∀ n, lower n ≤ n) (inPlace : Bool) (r n p : Nat) (P S out : List U8) (hr : 1 ≤ r)
    (hn : ∃ k, n = 2 ^ k) (hp : 1 ≤ p) (hmem : p * 128 * r ≤ T.isizeMax) (L : Int) (res : List U8 × Except ScryptError Unit) (after : Heap)
    (h : Heap.derive T G lower inPlace (.new r n p) P S out ⟨L, L⟩ = .ok (res, after)) :
    L + (128 * r * n : Nat) ≤ after.peak ∧
    L + (octetsHeld r n p + headersHeld r n p (lists inPlace) * T.vecSize + scratch T.vecSize r : Nat) ≤ after.peak ∧
    after.peak ≤ L + (max (octetsHeld r n p + headersHeld r n p (lists inPlace) * T.vecSize + scratch T.vecSize r)
      (640 * r * p + (1 + 2 * r) * p * T.vecSize) : Nat) := by
  obtain ⟨_, k2, k3, -⟩ := derive_heap T G lower hl inPlace (.new r n p) P S out hr hn hp hmem L L (Int.le_refl _) _ _ h
  change max L (L + (deriveBytes T inPlace r n p : Nat)) ≤ _ at k2
  change _ ≤ max L (L + max (deriveBytes T inPlace r n p : Nat) (joinBytes T r p : Nat)) at k3
  rw [← deriveBytes_eq, ← joinBytes_eq]
  refine ⟨?_, by omega, by omega⟩
  have h1 : 128 * r * n ≤ octetsHeld r n p := Nat.mul_le_mul_left _ (by omega)
  have h2 := deriveBytes_eq T inPlace r n p
  omega

/-- C104: whatever the parameters and however many lanes, it depends on them alone: two calls that return, with other passphrases, other salts and other
outputs, of other sizes too, take the same. -/
theorem C104_alike (T : Target) (G : Policy) (lower : Nat → Nat) (hl : ∀ n, lower n ≤ n) (inPlace : Bool) (r n p : Nat) (P S out P' S' out' : List U8)
    (hmem : p * 128 * r ≤ T.isizeMax) (L : Int) (res res' : List U8 × Except ScryptError Unit) (after after' : Heap)
    (h : Heap.derive T G lower inPlace (.new r n p) P S out ⟨L, L⟩ = .ok (res, after))
    (h' : Heap.derive T G lower inPlace (.new r n p) P' S' out' ⟨L, L⟩ = .ok (res', after')) : after' = after := by
  by_cases hv : 1 ≤ r ∧ (∃ k, n = 2 ^ k) ∧ 1 ≤ p
  · exact derive_alike T G lower hl inPlace (.new r n p) P' S' out' P S out hv.1 hv.2.1 hv.2.2 hmem L L (Int.le_refl _) _ _ _ _ h' h
  have refused : ∀ (P S out : List U8) (res : List U8 × Except ScryptError Unit) (after : Heap),
      Heap.derive T G lower inPlace (.new r n p) P S out ⟨L, L⟩ = .ok (res, after) → after = ⟨L, L⟩ := by
    rintro P S out ⟨o, res⟩ ⟨x, y⟩ h
    have h1 := C104_nothing_left T G lower hl inPlace r n p P S out o res hmem L _ h
    have h2 := (C104_same T G lower hl inPlace (.new r n p) P S out ⟨L, L⟩).2
    rw [h] at h2
    have h3 : (Scrypt.new r n p).derive T P S out = .ok (o, res) := by
      rcases h2 with h2 | h2
      · exact h2.symm
      · cases h2
    have h4 := h1.2 (fun h4 => hv (Verif.Props.Scrypt.C18_ranges_partial T r n p P S out o (h4 ▸ h3)))
    have h5 := h1.1
    change x = L at h5
    change y = L at h4
    rw [h4, h5]
  rw [refused _ _ _ _ _ h, refused _ _ _ _ _ h']

/-- With `r = 8`, `n = 16384`, `p = 1` on a 64-bit target: 16781312 octets, and 6685848 bytes for the vectors, and 640. -/
example (P S out : List U8) (hP : P.length ≤ 1000) (hS : S.length ≤ 1000) (hout : out.length ≤ 1000) :
    Heap.derive ⟨.w64, true⟩ std restOfBlock true (.new 8 16384 1) P S out ⟨0, 0⟩ =
      .ok ((Spec.Scrypt.scrypt P S 16384 8 1 out.length, .ok ()), ⟨0, 16781312 + 6685848 + 640⟩) :=
  C104_peak ⟨.w64, true⟩ std restOfBlock (fun n => Nat.mod_le _ _) true 8 16384 1 P S out (by decide) ⟨14, rfl⟩ (by decide) (by decide) (by decide)
    (by show _ < 2 ^ 64; omega) (by show _ < 2 ^ 64; omega) (by decide) (by show _ ≤ 2 ^ 63 - 1; omega) (by decide) 0

/-- A derivation on a 64-bit target, with bytes in use before, to which the other theorems apply too. -/
example (P S out : List U8) (hP : P.length ≤ 1000) (hS : S.length ≤ 1000) (hout : out.length ≤ 1000) :
    ∃ res after, Heap.derive ⟨.w64, true⟩ std restOfBlock true (.new 8 16384 1) P S out ⟨77, 77⟩ = .ok (res, after) ∧ 77 + 2 ^ 24 ≤ after.peak ∧
      after.live = 77 ∧ (.new 8 16384 1 : Scrypt).derive ⟨.w64, true⟩ P S out = .ok res := by
  have h := C104_peak ⟨.w64, true⟩ std restOfBlock (fun n => Nat.mod_le _ _) true 8 16384 1 P S out (by decide) ⟨14, rfl⟩ (by decide) (by decide) (by decide)
    (by show _ < 2 ^ 64; omega) (by show _ < 2 ^ 64; omega) (by decide) (by show _ ≤ 2 ^ 63 - 1; omega) (by decide) 77
  have h1 := C104_bounds ⟨.w64, true⟩ std restOfBlock (fun n => Nat.mod_le _ _) true 8 16384 1 P S out (by decide) ⟨14, rfl⟩ (by decide) (by decide) 77 _ _ h
  have h2 := C104_nothing_left ⟨.w64, true⟩ std restOfBlock (fun n => Nat.mod_le _ _) true 8 16384 1 P S out _ _ (by decide) 77 _ h
  have h3 := C104_same ⟨.w64, true⟩ std restOfBlock (fun n => Nat.mod_le _ _) true (.new 8 16384 1) P S out ⟨77, 77⟩
  rw [h] at h3
  refine ⟨_, _, h, h1.1, h2.1, ?_⟩
  rcases h3.2 with h3 | h3
  · exact h3.symm
  · cases h3

/-- Two derivations with many lanes, where joining them takes more than mixing them: an empty passphrase, and another with a salt and a longer key. -/
example (P S out : List U8) (hP : P.length ≤ 1000) (hS : S.length ≤ 1000) (hout : out.length ≤ 1000) :
    ∃ res res' after, Heap.derive ⟨.w32, true⟩ std restOfBlock true (.new 1 2 100) [] [] [0] ⟨5, 5⟩ = .ok (res, after) ∧
      Heap.derive ⟨.w32, true⟩ std restOfBlock true (.new 1 2 100) P S out ⟨5, 5⟩ = .ok (res', after) := by
  have key : ∀ (P S out : List U8), P.length ≤ 1000 → S.length ≤ 1000 → out.length ≤ 1000 →
      ∃ res after, Heap.derive ⟨.w32, true⟩ std restOfBlock true (.new 1 2 100) P S out ⟨5, 5⟩ = .ok (res, after) := by
    intro P S out hP hS hout
    have h1 := derive_erases ⟨.w32, true⟩ std restOfBlock true (.new 1 2 100) P S out ⟨5, 5⟩
    rw [Verif.Props.Growing.C98_scrypt ⟨.w32, true⟩ std restOfBlock (fun n => Nat.mod_le _ _) 1 2 100 P S out (by decide) ⟨1, rfl⟩ (by decide) (by decide)
      (by decide) (by show _ < 2 ^ 32; omega) (by show _ < 2 ^ 32; omega) (by decide) (by show _ ≤ 2 ^ 31 - 1; omega)] at h1
    cases h : Heap.derive ⟨.w32, true⟩ std restOfBlock true (.new 1 2 100) P S out ⟨5, 5⟩ with
    | error e => rw [h] at h1; cases h1
    | ok q => exact ⟨q.1, q.2, rfl⟩
  obtain ⟨res, after, h⟩ := key [] [] [0] (by decide) (by decide) (by decide)
  obtain ⟨res', after', h'⟩ := key P S out hP hS hout
  have h2 := C104_alike ⟨.w32, true⟩ std restOfBlock (fun n => Nat.mod_le _ _) true 1 2 100 [] [] [0] P S out (by decide) 5 res res' after after' h h'
  exact ⟨res, res', after, h, h2 ▸ h'⟩

end Verif.Props.Memory
