import Verif.Model.Common
import Verif.Spec.Hex

/-! The hexadecimal helper of the crate's own tests (src/common.rs:14-28). -/

namespace Verif.Props.Hex

open Spec.Hex

instance (c : BitVec 8) (v : Nat) : Decidable (IsDigit c v) := by unfold IsDigit; infer_instance

/-- A finite fact about one byte: a letter has a value exactly when it is a digit, and that value. -/
def LetterOk (c : U8) : M U8 → Prop
  | .ok v => IsDigit c v.toNat ∧ v.toNat < 16
  | .error e => e = .explicit ∧ ∀ p ∈ digits, p.1.toNat ≠ c.toNat

instance (c : U8) : (r : M U8) → Decidable (LetterOk c r)
  | .ok v => inferInstanceAs (Decidable (IsDigit c v.toNat ∧ v.toNat < 16))
  | .error e => inferInstanceAs (Decidable (e = .explicit ∧ ∀ p ∈ digits, p.1.toNat ≠ c.toNat))

theorem hexLetter_table : ∀ c : Fin 256, LetterOk (BitVec.ofFin c) (hexLetter (BitVec.ofFin c)) := by
  decide +kernel

theorem digit_unique : ∀ p ∈ digits, ∀ q ∈ digits, p.1.toNat = q.1.toNat → p.2 = q.2 := by decide +kernel

theorem IsDigit.unique {c : BitVec 8} {v w : Nat} (h : IsDigit c v) (h' : IsDigit c w) : v = w := by
  obtain ⟨p, hp, e, rfl⟩ := h
  obtain ⟨q, hq, e', rfl⟩ := h'
  exact digit_unique p hp q hq (e.trans e'.symm)

theorem hexLetter_ok {c : U8} {v : Nat} (h : IsDigit c v) :
    ∃ x : U8, hexLetter c = .ok x ∧ x.toNat = v ∧ v < 16 := by
  have t := hexLetter_table c.toFin
  rw [show BitVec.ofFin c.toFin = c from rfl] at t
  cases hx : hexLetter c with
  | ok x =>
    rw [hx] at t
    have := IsDigit.unique t.1 h
    exact ⟨x, rfl, this, this ▸ t.2⟩
  | error e =>
    rw [hx] at t
    obtain ⟨p, hp, e1, _⟩ := h
    exact absurd e1 (t.2 p hp)

theorem hexLetter_inv {c x : U8} (h : hexLetter c = .ok x) : IsDigit c x.toNat ∧ x.toNat < 16 := by
  have t := hexLetter_table c.toFin
  rw [show BitVec.ofFin c.toFin = c from rfl, h] at t
  exact t

theorem nibbles {h l : U8} (hh : h.toNat < 16) (hl : l.toNat < 16) :
    ((h <<< 4) ||| l).toNat = 16 * h.toNat + l.toNat := by
  have key : ∀ a b : Fin 16, (((BitVec.ofNat 8 a.val) <<< 4) ||| BitVec.ofNat 8 b.val).toNat
      = 16 * a.val + b.val := by decide +kernel
  have := key ⟨_, hh⟩ ⟨_, hl⟩
  simpa using this

/-- C58. The helper returns `bytes` for a text of even length exactly when the text writes `bytes` in
hexadecimal: it decodes every hexadecimal text, and it decodes nothing else. -/
theorem C58_hex (text bytes : List U8) (heven : text.length % 2 = 0) :
    hex_to_vec text = .ok bytes ↔ Writes text bytes := by
  induction text using hex_to_vec.induct generalizing bytes with
  | case1 =>
    constructor
    · intro h
      cases h
      exact .nil
    · intro h
      cases h
      rfl
  | case2 h => simp at heven
  | case3 h l rest ih =>
    have hev : rest.length % 2 = 0 := by simp only [List.length_cons] at heven; omega
    constructor
    · intro hr
      rw [hex_to_vec] at hr
      cases hh : hexLetter h with
      | error e => rw [hh] at hr; cases hr
      | ok x =>
        cases hl : hexLetter l with
        | error e => rw [hh, hl] at hr; cases hr
        | ok y =>
          cases ht : hex_to_vec rest with
          | error e => rw [hh, hl, ht] at hr; cases hr
          | ok r =>
            rw [hh, hl, ht] at hr
            cases hr
            obtain ⟨d1, b1⟩ := hexLetter_inv hh
            obtain ⟨d2, b2⟩ := hexLetter_inv hl
            exact .cons d1 d2 (nibbles b1 b2) ((ih r hev).mp ht)
    · intro hw
      cases hw with
      | cons d1 d2 hb hw =>
        obtain ⟨x, hx, vx, bx⟩ := hexLetter_ok d1
        obtain ⟨y, hy, vy, by_⟩ := hexLetter_ok d2
        rw [hex_to_vec, hx, hy, (ih _ hev).mpr hw]
        subst vx vy
        exact congrArg (fun b => Except.ok (b :: _))
          (BitVec.eq_of_toNat_eq ((nibbles bx by_).trans hb.symm))

/-- "6F". -/
example := (C58_hex [0x36, 0x46] [0x6f] rfl)

/-- C58. Any text is either decoded or makes the helper panic with its own `panic!()`, and it panics
exactly when some letter is not a hexadecimal digit; the last letter of a text of odd length is
checked as well but adds no byte. -/
theorem C58_panic (text : List U8) :
    (hex_to_vec text = .error .explicit ↔ ∃ c ∈ text, ¬ ∃ v, IsDigit c v) ∧
    (∀ e, hex_to_vec text = .error e → e = .explicit) ∧
    (∀ bytes, hex_to_vec text = .ok bytes → bytes.length = text.length / 2) := by
  have letter : ∀ c : U8, (∃ x, hexLetter c = .ok x ∧ ∃ v, IsDigit c v) ∨
      (hexLetter c = .error .explicit ∧ ¬ ∃ v, IsDigit c v) := by
    intro c
    have t := hexLetter_table c.toFin
    rw [show BitVec.ofFin c.toFin = c from rfl] at t
    cases hx : hexLetter c with
    | ok x => exact .inl ⟨x, rfl, _, (hexLetter_inv hx).1⟩
    | error e =>
      rw [hx] at t
      refine .inr ⟨by rw [t.1], ?_⟩
      rintro ⟨v, p, hp, e1, _⟩
      exact t.2 p hp e1
  induction text using hex_to_vec.induct with
  | case1 =>
    refine ⟨⟨fun h => (by cases h), fun h => ?_⟩, fun e h => (by cases h), fun b h => (by cases h; rfl)⟩
    obtain ⟨c, hc, _⟩ := h
    cases hc
  | case2 h =>
    rw [hex_to_vec]
    rcases letter h with ⟨x, hx, hv⟩ | ⟨hx, hv⟩
    · rw [hx]
      refine ⟨⟨fun h => (by cases h), fun h => ?_⟩, fun e h => (by cases h), fun b h => (by cases h; simp)⟩
      obtain ⟨c, hc, hn⟩ := h
      rw [List.mem_singleton] at hc
      exact absurd hv (hc ▸ hn)
    · rw [hx]
      exact ⟨⟨fun _ => ⟨h, List.mem_singleton.mpr rfl, hv⟩, fun _ => rfl⟩, fun e h => (by cases h; rfl),
        fun b h => (by cases h)⟩
  | case3 h l rest ih =>
    rw [hex_to_vec]
    rcases letter h with ⟨x, hx, hv⟩ | ⟨hx, hv⟩
    · rcases letter l with ⟨y, hy, hw⟩ | ⟨hy, hw⟩
      · rw [hx, hy]
        obtain ⟨i1, i2, i3⟩ := ih
        cases hr : hex_to_vec rest with
        | error e =>
          have := i2 e hr
          subst this
          obtain ⟨c, hc, hn⟩ := i1.mp hr
          exact ⟨⟨fun _ => ⟨c, List.mem_cons_of_mem _ (List.mem_cons_of_mem _ hc), hn⟩, fun _ => rfl⟩,
            fun e h => (by cases h; rfl), fun b h => (by cases h)⟩
        | ok r =>
          have hlen := i3 r hr
          refine ⟨⟨fun h => (by cases h), fun hbad => ?_⟩, fun e h => (by cases h), fun b h => ?_⟩
          · obtain ⟨c, hc, hn⟩ := hbad
            simp only [List.mem_cons] at hc
            rcases hc with rfl | rfl | hc
            · exact absurd hv hn
            · exact absurd hw hn
            · have := i1.mpr ⟨c, hc, hn⟩
              rw [hr] at this
              cases this
          · cases h
            simp only [List.length_cons, hlen]
            omega
      · rw [hx, hy]
        exact ⟨⟨fun _ => ⟨l, by simp, hw⟩, fun _ => rfl⟩, fun e h => (by cases h; rfl), fun b h => (by cases h)⟩
    · rw [hx]
      exact ⟨⟨fun _ => ⟨h, by simp, hv⟩, fun _ => rfl⟩, fun e h => (by cases h; rfl), fun b h => (by cases h)⟩

/-- C58. One more letter after a text of even length must be a digit too, and is dropped. -/
theorem C58_odd (text bytes : List U8) (heven : text.length % 2 = 0) (c : U8) :
    hex_to_vec (text ++ [c]) = .ok bytes ↔ Writes text bytes ∧ ∃ v, IsDigit c v := by
  rw [← C58_hex text bytes heven]
  induction text using hex_to_vec.induct generalizing bytes with
  | case1 =>
    rw [List.nil_append, hex_to_vec, hex_to_vec]
    cases hx : hexLetter c with
    | ok x => exact ⟨fun h => ⟨h, _, (hexLetter_inv hx).1⟩, fun h => h.1⟩
    | error e =>
      refine ⟨fun h => (by cases h), fun ⟨_, v, hv⟩ => ?_⟩
      obtain ⟨x, h, _⟩ := hexLetter_ok hv
      rw [hx] at h
      cases h
  | case2 h => simp at heven
  | case3 h l rest ih =>
    have hev : rest.length % 2 = 0 := by simp only [List.length_cons] at heven; omega
    rw [List.cons_append, List.cons_append, hex_to_vec, hex_to_vec]
    cases hexLetter h with
    | error e => exact ⟨fun h => (by cases h), fun h => (by cases h.1)⟩
    | ok x =>
      cases hexLetter l with
      | error e => exact ⟨fun h => (by cases h), fun h => (by cases h.1)⟩
      | ok y =>
        constructor
        · intro hr
          cases ht : hex_to_vec (rest ++ [c]) with
          | error e => rw [ht] at hr; cases hr
          | ok r =>
            rw [ht] at hr
            cases hr
            obtain ⟨h1, h2⟩ := (ih r hev).mp ht
            rw [h1]
            exact ⟨rfl, h2⟩
        · rintro ⟨hr, hv⟩
          cases ht : hex_to_vec rest with
          | error e => rw [ht] at hr; cases hr
          | ok r =>
            rw [ht] at hr
            cases hr
            rw [(ih r hev).mpr ⟨ht, hv⟩]
            rfl

/-- "6Fa". -/
example := (C58_odd [0x36, 0x46] [0x6f] rfl 0x61)

/-- "9f0A" is a text of even length that writes the bytes 159 and 10, -/
example : hex_to_vec [0x39, 0x66, 0x30, 0x41] = .ok [159, 10] := by decide +kernel
/-- "9f0" writes the byte 159 only, -/
example : hex_to_vec [0x39, 0x66, 0x30] = .ok [159] := by decide +kernel
/-- and "g0" makes the helper panic. -/
example : hex_to_vec [0x67, 0x30] = .error .explicit := by decide +kernel

end Verif.Props.Hex
