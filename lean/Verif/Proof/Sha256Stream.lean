import Verif.Proof.Sha256

/-! SHA-256: the streaming interface refines the specification's incremental hasher. -/

namespace Verif.Sha256
open Verif
open Spec.Sha256 (Machine hashBlocks hashAll blockWord compress padding)

/-! ### Facts about the specification -/

theorem hashBlocks_congr (h : Spec.Sha256.State) (a b : List U8) (n : Nat)
    (hab : ∀ k < 64 * n, Spec.byteAt a k = Spec.byteAt b k) : hashBlocks h a n = hashBlocks h b n := by
  induction n with
  | zero => rfl
  | succ n ih =>
    simp only [hashBlocks]
    rw [ih (fun k hk => hab k (by omega))]
    apply compress_congr
    intro t ht
    simp only [blockWord, Spec.be32At]
    rw [hab _ (by omega), hab _ (by omega), hab _ (by omega), hab _ (by omega)]

theorem byteAt_append_left (a b : List U8) (k : Nat) (h : k < a.length) :
    Spec.byteAt (a ++ b) k = Spec.byteAt a k := by
  simp [Spec.byteAt, List.getD_eq_getElem?_getD, List.getElem?_append_left h]

theorem byteAt_append_right (a b : List U8) (k : Nat) :
    Spec.byteAt (a ++ b) (a.length + k) = Spec.byteAt b k := by
  simp [Spec.byteAt, List.getD_eq_getElem?_getD, List.getElem?_append_right]

theorem hashBlocks_append (h : Spec.Sha256.State) (a b : List U8) (k n : Nat) (ha : a.length = 64 * k) :
    hashBlocks h (a ++ b) (k + n) = hashBlocks (hashBlocks h a k) b n := by
  induction n with
  | zero => exact hashBlocks_congr _ _ _ _ (fun j hj => byteAt_append_left _ _ _ (by omega))
  | succ n ih =>
    rw [← Nat.add_assoc]
    simp only [hashBlocks]
    rw [ih]
    apply compress_congr
    intro t ht
    simp only [blockWord, Spec.be32At]
    have e : ∀ j, 64 * (k + n) + 4 * t + j = a.length + (64 * n + 4 * t + j) := by intro j; omega
    have e0 : 64 * (k + n) + 4 * t = a.length + (64 * n + 4 * t) := by omega
    rw [e, e, e, e0]
    simp only [byteAt_append_right]

/-- Splitting off whole blocks. -/
theorem hashAll_split (h : Spec.Sha256.State) (a b : List U8) (k : Nat) (ha : a.length = 64 * k) :
    hashAll h (a ++ b) = hashAll (hashBlocks h a k) b := by
  simp only [hashAll]
  rw [← hashBlocks_append _ _ _ _ _ ha]
  congr 1
  simp only [List.length_append]
  omega

theorem absorb_absorb (m : Machine) (a b : List U8) : (m.absorb a).absorb b = m.absorb (a ++ b) := by
  have key : ∀ (all b : List U8) (h : Spec.Sha256.State),
      hashAll (hashAll h all) (all.drop (64 * (all.length / 64)) ++ b) = hashAll h (all ++ b) ∧
      (all.drop (64 * (all.length / 64)) ++ b).drop (64 * ((all.drop (64 * (all.length / 64)) ++ b).length / 64))
        = (all ++ b).drop (64 * ((all ++ b).length / 64)) := by
    intro all b h
    have hl : 64 * (all.length / 64) ≤ all.length := by omega
    constructor
    · conv => rhs; rw [← List.take_append_drop (64 * (all.length / 64)) all, List.append_assoc]
      rw [hashAll_split _ (all.take (64 * (all.length / 64))) _ (all.length / 64) (by rw [List.length_take]; omega)]
      congr 1
      rw [hashAll]
      refine hashBlocks_congr _ _ _ _ ?_
      intro k hk
      simp [Spec.byteAt, List.getD_eq_getElem?_getD, hk]
    · conv => rhs; rw [← List.take_append_drop (64 * (all.length / 64)) all, List.append_assoc]
      rw [List.drop_append (l₁ := all.take _), List.drop_eq_nil_of_le (as := all.take _)]
      · simp only [List.nil_append, List.length_append, List.length_take, List.length_drop]
        congr 1
        omega
      · simp only [List.length_append, List.length_take, List.length_drop]
        omega
  obtain ⟨k1, k2⟩ := key (m.pending ++ a) b m.chain
  unfold Machine.absorb
  simp only [k1, k2]
  simp [Nat.add_assoc]

theorem absorb_nil (m : Machine) (h : m.pending.length < 64) : m.absorb [] = m := by
  simp [Machine.absorb, hashAll, Nat.div_eq_of_lt h, hashBlocks]

theorem absorb_one_lt (m : Machine) (b : U8) (h : m.pending.length < 63) :
    m.absorb [b] = ⟨m.chain, m.pending ++ [b], m.total + 1⟩ := by
  have : (m.pending.length + 1) / 64 = 0 := by omega
  simp [Machine.absorb, hashAll, hashBlocks, this]

theorem absorb_one_eq (m : Machine) (b : U8) (h : m.pending.length = 63) :
    m.absorb [b] = ⟨compress m.chain (blockWord (m.pending ++ [b]) 0), [], m.total + 1⟩ := by
  simp [Machine.absorb, hashAll, hashBlocks, h]

/-! ### The refinement relation -/

/-- The hasher `s` holds what the abstract hasher `m` holds. -/
structure R (T : Target) (s : SHA256) (m : Machine) : Prop where
  chain : s.h = m.chain
  len : s.length = m.total % 2 ^ T.bits
  plen : m.pending.length = m.total % 64
  buf : ∀ j, (hj : j < m.pending.length) → (hj' : j < 64) → s.buffer[j] = m.pending[j]

theorem R_new (T : Target) : R T .new .start where
  chain := H_eq
  len := by simp [SHA256.new, Machine.start]
  plen := by simp [Machine.start]
  buf := by intro j hj; simp [Machine.start] at hj

theorem two_pow_bits_dvd (T : Target) : 64 ∣ 2 ^ T.bits := by
  rcases T.bits_cases with h | h <;> rw [h] <;> decide

theorem mod_bits_mod (T : Target) (n : Nat) : n % 2 ^ T.bits % 64 = n % 64 :=
  Nat.mod_mod_of_dvd _ (two_pow_bits_dvd T)

/-- Incrementing the byte counter. -/
theorem add_one_mod (T : Target) (n : Nat) (h : T.checks = false ∨ n + 1 < 2 ^ T.bits) :
    T.add (n % 2 ^ T.bits) 1 = .ok ((n + 1) % 2 ^ T.bits) := by
  have hp : 0 < 2 ^ T.bits := Nat.two_pow_pos _
  rcases Nat.lt_or_ge (n % 2 ^ T.bits + 1) (2 ^ T.bits) with hlt | hge
  · rw [Target.add_ok _ hlt, Nat.add_mod n 1, Nat.mod_eq_of_lt (a := 1)]
    · rw [Nat.mod_eq_of_lt hlt]
    · have := T.two_pow_ge; omega
  · rcases h with h | h
    · simp only [Target.add, Nat.not_lt.mpr hge, if_false, h]
      simp
    · rw [Nat.mod_eq_of_lt (by omega)] at hge
      omega

theorem toList_vec_ext {v : Vector U8 64} {l : List U8} (hl : l.length = 64)
    (h : ∀ j, (hj : j < 64) → v[j] = l[j]'(by omega)) : v.toList = l := by
  apply List.ext_getElem
  · simp [hl]
  · intro i h1 h2
    simpa using h i (by simpa using h1)

theorem updateByte_R (T : Target) (s : SHA256) (blk : Vector U32 16) (m : Machine) (b : U8) (hR : R T s m)
    (hov : T.checks = false ∨ m.total + 1 < 2 ^ T.bits) :
    ∃ s' blk', SHA256.updateByte T b (s, blk) = .ok (s', blk') ∧ R T s' (m.absorb [b]) := by
  obtain ⟨hc, hl, hp, hb⟩ := hR
  have hoff : s.length % BLOCK_SIZE = m.total % 64 := by rw [hl]; exact mod_bits_mod T _
  have hlt : m.total % 64 < 64 := Nat.mod_lt _ (by decide)
  unfold SHA256.updateByte
  simp only [hoff, vupd_ok _ _ _ hlt, ok_bind]
  rw [hl, add_one_mod T _ hov]
  simp only [ok_bind, BLOCK_SIZE, mod_bits_mod]
  by_cases hz : (m.total + 1) % 64 = 0
  · have h63 : m.pending.length = 63 := by omega
    simp only [hz, ne_eq, not_true_eq_false, if_false]
    obtain ⟨block', h1, h2⟩ := fill_process_eq
      { s with buffer := s.buffer.set (m.total % 64) b hlt, length := (m.total + 1) % 2 ^ T.bits }
      (s.buffer.set (m.total % 64) b hlt) blk
    rw [h1]
    simp only [ok_bind]
    rw [h2]
    refine ⟨_, _, rfl, ?_⟩
    rw [absorb_one_eq _ _ h63]
    have hlist : (s.buffer.set (m.total % 64) b hlt).toList = m.pending ++ [b] := by
      apply toList_vec_ext (by simp [h63])
      intro j hj
      rw [Vector.getElem_set]
      by_cases hj' : m.total % 64 = j
      · have : j = m.pending.length := by omega
        subst this
        simp [hj']
      · rw [if_neg hj', List.getElem_append_left (by omega)]
        exact hb j (by omega) hj
    refine ⟨?_, rfl, by simp [hz], by intro j hj; simp at hj⟩
    simp only [hlist, hc]
  · simp only [hz, ne_eq, not_false_eq_true, if_true]
    refine ⟨_, _, rfl, ?_⟩
    rw [absorb_one_lt _ _ (by omega)]
    refine ⟨hc, rfl, by simp; omega, ?_⟩
    intro j hj hj'
    simp only [List.length_append, List.length_singleton] at hj
    simp only
    rw [Vector.getElem_set]
    by_cases hjj : m.total % 64 = j
    · have : j = m.pending.length := by omega
      subst this
      simp [hjj]
    · rw [if_neg hjj, List.getElem_append_left (by omega)]
      exact hb j (by omega) hj'

theorem forEach_updateByte_R (T : Target) (data : List U8) (s : SHA256) (blk : Vector U32 16) (m : Machine) (hR : R T s m)
    (hov : T.checks = false ∨ m.total + data.length < 2 ^ T.bits) :
    ∃ s' blk', forEach data (s, blk) (SHA256.updateByte T) = .ok (s', blk') ∧ R T s' (m.absorb data) := by
  induction data generalizing s blk m with
  | nil =>
    refine ⟨s, blk, rfl, ?_⟩
    rwa [absorb_nil m (by rw [hR.plen]; exact Nat.mod_lt _ (by decide))]
  | cons b data ih =>
    obtain ⟨s', blk', h1, hR'⟩ := updateByte_R T s blk m b hR
      (hov.imp id (fun h => by simp only [List.length_cons] at h; omega))
    obtain ⟨s'', blk'', h2, hR''⟩ := ih s' blk' _ hR'
      (hov.imp id (fun h => by
        simp only [List.length_cons] at h
        simp only [Machine.absorb, List.length_singleton]; omega))
    refine ⟨s'', blk'', ?_, ?_⟩
    · rw [forEach_cons, h1]; exact h2
    · rw [absorb_absorb] at hR''; exact hR''

/-- `update` absorbs its argument. -/
theorem update_R (T : Target) (data : List U8) (s : SHA256) (m : Machine) (hR : R T s m)
    (hov : T.checks = false ∨ m.total + data.length < 2 ^ T.bits) :
    ∃ s', s.update T data = .ok s' ∧ R T s' (m.absorb data) := by
  obtain ⟨s', blk', h1, hR'⟩ := forEach_updateByte_R T data s (Vector.replicate 16 0) m hR hov
  refine ⟨s', ?_, hR'⟩
  unfold SHA256.update
  rw [h1]
  rfl

/-! ### Output -/

theorem byte_shift {w : Nat} (v : BitVec w) (k : Nat) : (v >>> k).setWidth 8 = BitVec.ofNat 8 (v.toNat / 2 ^ k) := by
  apply BitVec.eq_of_toNat_eq
  simp [Nat.shiftRight_eq_div_pow]

theorem byte_low {w : Nat} (v : BitVec w) : v.setWidth 8 = BitVec.ofNat 8 v.toNat := by
  apply BitVec.eq_of_toNat_eq
  simp

theorem beBytes4 (v : Nat) : Spec.beBytes 4 v =
    [BitVec.ofNat 8 (v / 2^24), BitVec.ofNat 8 (v / 2^16), BitVec.ofNat 8 (v / 2^8), BitVec.ofNat 8 v] := by
  simp [Spec.beBytes, List.range, List.range.loop]

theorem beBytes8 (v : Nat) : Spec.beBytes 8 v =
    [BitVec.ofNat 8 (v / 2^56), BitVec.ofNat 8 (v / 2^48), BitVec.ofNat 8 (v / 2^40), BitVec.ofNat 8 (v / 2^32),
     BitVec.ofNat 8 (v / 2^24), BitVec.ofNat 8 (v / 2^16), BitVec.ofNat 8 (v / 2^8), BitVec.ofNat 8 v] := by
  simp [Spec.beBytes, List.range, List.range.loop]

theorem take_set_succ {α : Type} (l : List α) (i : Nat) (x : α) (h : i < l.length) :
    (l.set i x).take (i + 1) = l.take i ++ [x] := by
  rw [List.take_set, List.take_succ_eq_append_getElem h, List.set_append_right _ _ (by simp; omega)]
  simp [Nat.min_eq_left (Nat.le_of_lt h)]

theorem output_eq (h : Vector U32 8) : ∃ d, SHA256.output h = .ok d ∧ d.toList = Spec.Sha256.output h := by
  unfold SHA256.output
  have := forRange_inv 0 8 (by decide) (Vector.replicate 32 (0 : U8)) (fun i out => do
      let hi ← vidx h i
      let out ← vupd out (i * 4) ((hi >>> 24).setWidth 8)
      let out ← vupd out (i * 4 + 1) ((hi >>> 16).setWidth 8)
      let out ← vupd out (i * 4 + 2) ((hi >>> 8).setWidth 8)
      vupd out (i * 4 + 3) (hi.setWidth 8))
    (fun i out => out.toList.take (4 * i) = (h.toList.take i).flatMap fun w => Spec.beBytes 4 w.toNat)
    (by simp)
    (by
      intro i out _ hi hP
      rw [vidx_ok _ _ hi, ok_bind, vupd_ok _ _ _ (by omega), ok_bind, vupd_ok _ _ _ (by omega), ok_bind,
        vupd_ok _ _ _ (by omega), ok_bind, vupd_ok _ _ _ (by omega)]
      refine ⟨_, rfl, ?_⟩
      have hi' : i < h.toList.length := by simpa using hi
      rw [List.take_succ_eq_append_getElem hi', List.flatMap_append, ← hP]
      simp only [Vector.toList_set]
      rw [show 4 * (i + 1) = i * 4 + 3 + 1 by omega, take_set_succ _ _ _ (by simp; omega),
        take_set_succ _ _ _ (by simp; omega), take_set_succ _ _ _ (by simp; omega),
        take_set_succ _ _ _ (by simp; omega)]
      rw [byte_low]
      simp [beBytes4, byte_shift, Nat.mul_comm, Nat.shiftRight_eq_div_pow])
  obtain ⟨d, h1, h2⟩ := this
  refine ⟨d, h1, ?_⟩
  rw [List.take_of_length_le (by simp), List.take_of_length_le (by simp)] at h2
  exact h2

/-! ### `digest` -/

theorem write_u64_be_eq (data : Vector U8 64) (v : U64) :
    ∃ d, write_u64_be data 56 v = .ok d ∧ d.toList = data.toList.take 56 ++ Spec.beBytes 8 v.toNat := by
  unfold write_u64_be
  simp only [Nat.reduceAdd]
  rw [vupd_ok _ _ _ (by decide), ok_bind, vupd_ok _ _ _ (by decide), ok_bind, vupd_ok _ _ _ (by decide), ok_bind,
    vupd_ok _ _ _ (by decide), ok_bind, vupd_ok _ _ _ (by decide), ok_bind, vupd_ok _ _ _ (by decide), ok_bind,
    vupd_ok _ _ _ (by decide), ok_bind, vupd_ok _ _ _ (by decide)]
  refine ⟨_, rfl, ?_⟩
  simp only [Vector.toList_set]
  rw [← List.take_of_length_le (i := 63 + 1) (l := List.set _ 63 _) (by simp)]
  rw [take_set_succ _ _ _ (by simp), take_set_succ _ _ _ (by simp), take_set_succ _ _ _ (by simp),
    take_set_succ _ _ _ (by simp), take_set_succ _ _ _ (by simp), take_set_succ _ _ _ (by simp),
    take_set_succ _ _ _ (by simp), take_set_succ _ _ _ (by simp)]
  rw [byte_low]
  simp [beBytes8, byte_shift, Nat.shiftRight_eq_div_pow]

/-- The loop that clears the rest of the buffer. -/
theorem clear_eq (buf : Vector U8 64) (off : Nat) (h : off ≤ 64) :
    ∃ buf', (forRange off 64 buf fun i buffer => vupd buffer i 0) = .ok buf' ∧
      buf'.toList = buf.toList.take off ++ List.replicate (64 - off) 0 := by
  obtain ⟨b, h1, h2⟩ := forRange_inv off 64 h buf (fun i buffer => vupd buffer i 0)
    (fun i b => b.toList.take i = buf.toList.take off ++ List.replicate (i - off) 0)
    (by simp) (by
      intro i b hlo hi hP
      rw [vupd_ok _ _ _ hi]
      refine ⟨_, rfl, ?_⟩
      rw [Vector.toList_set, take_set_succ _ _ _ (by simp; omega), hP,
        show i + 1 - off = (i - off) + 1 by omega, List.replicate_succ', List.append_assoc])
  refine ⟨b, h1, ?_⟩
  rwa [List.take_of_length_le (by simp)] at h2

theorem mul8_mod (T : Target) (n : Nat) (h : T.checks = false ∨ n * 8 < 2 ^ T.bits) :
    T.mul n 8 = .ok (n * 8 % 2 ^ T.bits) := by
  rcases Nat.lt_or_ge (n * 8) (2 ^ T.bits) with hlt | hge
  · rw [Target.mul_ok _ hlt, Nat.mod_eq_of_lt hlt]
  · rcases h with h | h
    · simp only [Target.mul, Nat.not_lt.mpr hge, if_false, h]
      simp
    · omega

theorem mod_bits_lt64 (T : Target) (n : Nat) : n % 2 ^ T.bits < 2 ^ 64 := by
  have h1 : n % 2 ^ T.bits < 2 ^ T.bits := Nat.mod_lt _ (Nat.two_pow_pos _)
  have h2 : 2 ^ T.bits ≤ 2 ^ 64 := by
    apply Nat.pow_le_pow_right (by decide)
    rcases T.bits_cases with h | h <;> omega
  omega

/-- The length field that `digest` writes: the `usize` product `length * 8`. -/
def lengthField (T : Target) (total : Nat) : Nat := (total % 2 ^ T.bits) * 8 % 2 ^ T.bits

theorem hashAll_one (h : Spec.Sha256.State) (a : List U8) (ha : a.length = 64) :
    hashAll h a = compress h (blockWord a 0) := by
  simp [hashAll, ha, hashBlocks]

theorem hashAll_two (h : Spec.Sha256.State) (a b : List U8) (ha : a.length = 64) (hb : b.length = 64) :
    hashAll h (a ++ b) = compress (compress h (blockWord a 0)) (blockWord b 0) := by
  rw [hashAll_split _ _ _ 1 (by omega), hashAll_one _ _ hb]
  rfl

/-- `digest` finishes the abstract hasher. -/
theorem digest_R (T : Target) (s : SHA256) (m : Machine) (hR : R T s m)
    (hov : T.checks = false ∨ m.total % 2 ^ T.bits * 8 < 2 ^ T.bits) :
    ∃ s' d, s.digest T = .ok (s', d) ∧ R T s' (m.finish (lengthField T m.total)).1 ∧
      d.toList = (m.finish (lengthField T m.total)).2 := by
  obtain ⟨hc, hl, hp, hb⟩ := hR
  have hoff : s.length % BLOCK_SIZE = m.total % 64 := by rw [hl]; exact mod_bits_mod T _
  have hlt : m.total % 64 < 64 := Nat.mod_lt _ (by decide)
  unfold SHA256.digest
  simp only [hoff]
  obtain ⟨buf1, hclr, hbuf1⟩ := clear_eq s.buffer (m.total % 64) (by omega)
  have hpend : s.buffer.toList.take (m.total % 64) = m.pending := by
    apply List.ext_getElem
    · simp [hp]; omega
    · intro i h1 h2
      simpa using hb i h2 (by omega)
  rw [hpend] at hbuf1
  rw [hclr]
  simp only [ok_bind]
  have hmul := mul8_mod T (m.total % 2 ^ T.bits) hov
  have hfield : (BitVec.ofNat 64 (lengthField T m.total)).toNat = lengthField T m.total := by
    rw [BitVec.toNat_ofNat]
    exact Nat.mod_eq_of_lt (mod_bits_lt64 T _)
  have hset : ∀ (x : U8) (l : List U8), (m.pending ++ l).set (m.total % 64) x = m.pending ++ l.set 0 x := by
    intro x l
    rw [List.set_append_right _ _ (by omega), hp]; simp
  by_cases hov : m.total % 64 + 9 > BLOCK_SIZE
  · -- two blocks
    simp only [hov, if_true, vidx_ok _ _ hlt, vupd_ok _ _ _ hlt, ok_bind]
    simp only [BLOCK_SIZE] at hov
    have hv : buf1[m.total % 64] ||| (0x80 : U8) = 0x80 := by
      have : buf1[m.total % 64] = buf1.toList[m.total % 64]'(by simpa using hlt) := by simp
      rw [this]
      simp only [hbuf1, List.getElem_append_right (Nat.le_of_eq hp), hp, List.getElem_replicate]
      decide
    rw [hv]
    obtain ⟨blk1, h1, h2⟩ := fill_process_eq { s with buffer := buf1.set (m.total % 64) 0x80 hlt }
      (buf1.set (m.total % 64) 0x80 hlt) (Vector.replicate 16 0)
    rw [h1]
    simp only [ok_bind]
    rw [h2]
    simp only [ok_bind, pure_eq_ok, hl, hmul, not_true_eq_false, if_false]
    obtain ⟨buf2, h3, hbuf2⟩ := write_u64_be_eq (Vector.replicate 64 0) (BitVec.ofNat 64 (lengthField T m.total))
    rw [show 64 - 8 = 56 from rfl]
    unfold lengthField at h3
    rw [h3]
    simp only [ok_bind]
    have hA : (buf1.set (m.total % 64) 0x80 hlt).toList = m.pending ++ 0x80 :: List.replicate (63 - m.total % 64) 0 := by
      rw [Vector.toList_set, hbuf1, hset, show 64 - m.total % 64 = (63 - m.total % 64) + 1 by omega,
        List.replicate_succ, List.set_cons_zero]
    have hB : buf2.toList = List.replicate 56 0 ++ Spec.beBytes 8 (lengthField T m.total) := by
      rw [hbuf2, hfield]; simp
    obtain ⟨blk2, h4, h5⟩ := fill_process_eq
      { h := compress s.h (blockWord (buf1.set (m.total % 64) 0x80 hlt).toList 0), buffer := buf2,
        length := m.total % 2 ^ T.bits } buf2 blk1
    rw [h4]
    simp only [ok_bind]
    rw [h5]
    simp only [ok_bind]
    obtain ⟨d, h6, h7⟩ := output_eq (compress (compress s.h (blockWord (buf1.set (m.total % 64) 0x80 hlt).toList 0))
      (blockWord buf2.toList 0))
    rw [h6]
    simp only [ok_bind]
    have hall : m.pending ++ padding m.total (lengthField T m.total) =
        (buf1.set (m.total % 64) 0x80 hlt).toList ++ buf2.toList := by
      rw [hA, hB, padding, Spec.Sha256.zeroBytes,
        show (119 - m.total % 64) % 64 = (63 - m.total % 64) + 56 by omega, ← List.replicate_append_replicate]
      simp
    have hchain : hashAll m.chain (m.pending ++ padding m.total (lengthField T m.total)) =
        compress (compress s.h (blockWord (buf1.set (m.total % 64) 0x80 hlt).toList 0)) (blockWord buf2.toList 0) := by
      rw [hall, hashAll_two _ _ _ (by simp) (by simp), hc]
    refine ⟨_, _, rfl, ⟨?_, ?_, ?_, ?_⟩, ?_⟩
    · simp only [Machine.finish, hchain]
    · simp only [Machine.finish]
    · simp only [Machine.finish, hall]
      simp [hp]; omega
    · intro j hj hj'
      simp only [Machine.finish, hall]
      simp
    · rw [h7]
      simp only [Machine.finish, hchain]
  · -- one block
    simp only [hov, if_false, ok_bind, pure_eq_ok, not_false_eq_true, if_true, hl, hmul]
    simp only [BLOCK_SIZE] at hov
    obtain ⟨buf2, h3, hbuf2⟩ := write_u64_be_eq buf1 (BitVec.ofNat 64 (lengthField T m.total))
    rw [show 64 - 8 = 56 from rfl]
    unfold lengthField at h3
    rw [h3]
    simp only [ok_bind, vidx_ok _ _ hlt, vupd_ok _ _ _ hlt]
    have hB : buf2.toList = m.pending ++ (0 :: List.replicate (55 - m.total % 64) 0 ++ Spec.beBytes 8 (lengthField T m.total)) := by
      rw [hbuf2, hfield, hbuf1, List.take_append, hp, List.take_of_length_le (by omega), List.take_replicate,
        show min (56 - m.total % 64) (64 - m.total % 64) = (55 - m.total % 64) + 1 by omega, List.replicate_succ]
      simp
    have hv : buf2[m.total % 64] ||| (0x80 : U8) = 0x80 := by
      have : buf2[m.total % 64] = buf2.toList[m.total % 64]'(by simpa using hlt) := by simp
      rw [this]
      simp only [hB, List.getElem_append_right (Nat.le_of_eq hp), hp]
      simp
    rw [hv]
    have hC : (buf2.set (m.total % 64) 0x80 hlt).toList =
        m.pending ++ padding m.total (lengthField T m.total) := by
      rw [Vector.toList_set, hB, hset, padding, Spec.Sha256.zeroBytes,
        show (119 - m.total % 64) % 64 = 55 - m.total % 64 by omega]
      simp
    have hlen : (m.pending ++ padding m.total (lengthField T m.total)).length = 64 := by rw [← hC]; simp
    obtain ⟨blk2, h4, h5⟩ := fill_process_eq
      { h := s.h, buffer := buf2.set (m.total % 64) 0x80 hlt,
        length := m.total % 2 ^ T.bits } (buf2.set (m.total % 64) 0x80 hlt) (Vector.replicate 16 0)
    rw [h4]
    simp only [ok_bind]
    rw [h5]
    simp only [ok_bind]
    obtain ⟨d, h6, h7⟩ := output_eq (compress s.h (blockWord (buf2.set (m.total % 64) 0x80 hlt).toList 0))
    rw [h6]
    simp only [ok_bind]
    have hchain : hashAll m.chain (m.pending ++ padding m.total (lengthField T m.total)) =
        compress s.h (blockWord (buf2.set (m.total % 64) 0x80 hlt).toList 0) := by
      rw [hashAll_one _ _ hlen, hC, hc]
    refine ⟨_, _, rfl, ⟨?_, ?_, ?_, ?_⟩, ?_⟩
    · simp only [Machine.finish, hchain]
    · simp only [Machine.finish]
    · simp only [Machine.finish, hlen]
      simp [hp]
    · intro j hj hj'
      have : (buf2.set (m.total % 64) 0x80 hlt)[j] = (buf2.set (m.total % 64) 0x80 hlt).toList[j]'(by simpa using hj') := by
        simp
      rw [this]
      simp only [hC]
      simp only [Machine.finish, hlen, List.getElem_take, List.getElem_drop, Nat.sub_self, Nat.zero_add]
    · rw [h7]
      simp only [Machine.finish, hchain]

/-- With overflow checks, `digest` panics once the bit length does not fit a `usize`. -/
theorem digest_panic (T : Target) (s : SHA256) (m : Machine) (hR : R T s m) (hchk : T.checks = true)
    (hbig : 2 ^ T.bits ≤ m.total % 2 ^ T.bits * 8) : s.digest T = .error .overflow := by
  obtain ⟨hc, hl, hp, hb⟩ := hR
  have hoff : s.length % BLOCK_SIZE = m.total % 64 := by rw [hl]; exact mod_bits_mod T _
  have hlt : m.total % 64 < 64 := Nat.mod_lt _ (by decide)
  have hmul : T.mul (m.total % 2 ^ T.bits) 8 = .error .overflow := by
    simp [Target.mul, Nat.not_lt.mpr hbig, hchk]
  unfold SHA256.digest
  simp only [hoff]
  obtain ⟨buf1, hclr, hbuf1⟩ := clear_eq s.buffer (m.total % 64) (by omega)
  rw [hclr]
  simp only [ok_bind]
  by_cases hov : m.total % 64 + 9 > BLOCK_SIZE
  · simp only [hov, if_true, vidx_ok _ _ hlt, vupd_ok _ _ _ hlt, ok_bind]
    obtain ⟨blk1, h1, h2⟩ := fill_process_eq { s with buffer := buf1.set (m.total % 64) (buf1[m.total % 64] ||| 0x80) hlt }
      (buf1.set (m.total % 64) (buf1[m.total % 64] ||| 0x80) hlt) (Vector.replicate 16 0)
    rw [h1]
    simp only [ok_bind]
    rw [h2]
    simp only [ok_bind, pure_eq_ok, hl, hmul, error_bind]
  · simp only [hov, if_false, ok_bind, pure_eq_ok, hl, hmul, error_bind]

/-! ### A fresh hasher -/

theorem absorb_start_total (msg : List U8) : (Machine.start.absorb msg).total = msg.length := by
  simp [Machine.absorb, Machine.start]

theorem finish_start (msg : List U8) (f : Nat) :
    ((Machine.start.absorb msg).finish f).2 = Spec.Sha256.sha256WithLength f msg := by
  simp only [Machine.finish, absorb_start_total, Spec.Sha256.sha256WithLength]
  have := absorb_absorb Machine.start msg (Spec.Sha256.padding msg.length f)
  have := congrArg Machine.chain this
  simp only [Machine.absorb, Machine.start, List.nil_append] at this ⊢
  rw [this]

theorem lengthField_eq (T : Target) (n : Nat) : lengthField T n = 8 * n % 2 ^ T.bits := by
  rw [lengthField, Nat.mod_mul_mod, Nat.mul_comm]

/-! ### Chunking and overflow of the byte counter -/

theorem updateByte_scratch (T : Target) (b : U8) (s : SHA256) (blk blk' : Vector U32 16) :
    (SHA256.updateByte T b (s, blk)).map Prod.fst = (SHA256.updateByte T b (s, blk')).map Prod.fst := by
  unfold SHA256.updateByte
  have hlt : s.length % BLOCK_SIZE < 64 := Nat.mod_lt _ (by decide)
  simp only [vupd_ok _ _ _ hlt, ok_bind, fill_block_eq]
  cases T.add s.length 1 with
  | error e => rfl
  | ok l =>
    simp only [ok_bind]
    split <;> rfl

theorem forEach_scratch (T : Target) (data : List U8) (s : SHA256) (blk blk' : Vector U32 16) :
    (forEach data (s, blk) (SHA256.updateByte T)).map Prod.fst =
      (forEach data (s, blk') (SHA256.updateByte T)).map Prod.fst := by
  induction data generalizing s blk blk' with
  | nil => rfl
  | cons b data ih =>
    simp only [forEach_cons]
    have h := updateByte_scratch T b s blk blk'
    cases h1 : SHA256.updateByte T b (s, blk) with
    | error e =>
      cases h2 : SHA256.updateByte T b (s, blk') with
      | error e' => rw [h1, h2] at h; simpa [Except.map] using h
      | ok x => rw [h1, h2] at h; simp [Except.map] at h
    | ok x =>
      cases h2 : SHA256.updateByte T b (s, blk') with
      | error e' => rw [h1, h2] at h; simp [Except.map] at h
      | ok y =>
        rw [h1, h2] at h
        obtain ⟨x1, x2⟩ := x
        obtain ⟨y1, y2⟩ := y
        simp only [Except.map, Except.ok.injEq] at h
        subst h
        exact ih _ _ _

theorem update_eq_map (T : Target) (s : SHA256) (data : List U8) (blk : Vector U32 16) :
    s.update T data = (forEach data (s, blk) (SHA256.updateByte T)).map Prod.fst := by
  rw [forEach_scratch T data s blk (Vector.replicate 16 0)]
  unfold SHA256.update
  cases forEach data (s, Vector.replicate 16 0) (SHA256.updateByte T) <;> rfl

theorem update_append (T : Target) (s : SHA256) (a b : List U8) :
    (s.update T a >>= fun s => s.update T b) = s.update T (a ++ b) := by
  rw [update_eq_map T s a (Vector.replicate 16 0), update_eq_map T s (a ++ b) (Vector.replicate 16 0), forEach_append]
  cases h : forEach a (s, Vector.replicate 16 0) (SHA256.updateByte T) with
  | error e => rfl
  | ok x =>
    obtain ⟨s', blk⟩ := x
    exact update_eq_map T s' b blk

theorem update_nil (T : Target) (s : SHA256) : s.update T [] = .ok s := rfl

theorem foldlM_update (T : Target) (s : SHA256) (chunks : List (List U8)) :
    chunks.foldlM (SHA256.update T) s = s.update T chunks.flatten := by
  induction chunks generalizing s with
  | nil => rfl
  | cons c cs ih =>
    rw [List.foldlM_cons, List.flatten_cons, ← update_append]
    congr 1
    funext s'
    exact ih s'

theorem update_overflow (T : Target) (data : List U8) (s : SHA256) (m : Machine) (hR : R T s m)
    (hchk : T.checks = true) (hlt : m.total < 2 ^ T.bits) (hbig : 2 ^ T.bits ≤ m.total + data.length) :
    s.update T data = .error .overflow := by
  rw [update_eq_map T s data (Vector.replicate 16 0)]
  suffices ∀ blk, forEach data (s, blk) (SHA256.updateByte T) = .error .overflow by rw [this]; rfl
  induction data generalizing s m with
  | nil => simp at hbig; omega
  | cons b data ih =>
    intro blk
    rw [forEach_cons]
    by_cases h : m.total + 1 < 2 ^ T.bits
    · obtain ⟨s', blk', h1, hR'⟩ := updateByte_R T s blk m b hR (.inr h)
      rw [h1]
      exact ih s' _ hR' (by simpa [Machine.absorb] using h)
        (by simp only [List.length_cons] at hbig; simp only [Machine.absorb, List.length_singleton]; omega) blk'
    · have hoff : s.length % BLOCK_SIZE < 64 := Nat.mod_lt _ (by decide)
      have hl : s.length = m.total := by rw [hR.len, Nat.mod_eq_of_lt hlt]
      have hadd : T.add s.length 1 = .error .overflow := by rw [hl]; simp [Target.add, h, hchk]
      unfold SHA256.updateByte
      simp only [vupd_ok _ _ _ hoff, ok_bind, hadd, error_bind]

end Verif.Sha256
