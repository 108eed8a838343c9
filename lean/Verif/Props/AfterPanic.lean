import Verif.Source.Caught
import Verif.Props.SourceHash

/-!
Property C81: what a `SHA256` or `HMac` does after one of its methods has panicked and the panic was caught
(`std::panic::catch_unwind`). The source is evaluated by `Source/Unwind.lean`, which keeps the values of the variables
when a panic happens. Panics of these methods are overflows of the byte or bit count, in builds with overflow checks.
-/

namespace Verif.Props.AfterPanic
open Verif Verif.Source Verif.Sha256 Verif.Hmac Verif.Props.Source
open Spec.Sha256 (Machine)

/-! ### The specification -/

/-- An operation on counts overflowed. -/
abbrev overflowed : Verif.Source.R Val := .error (.panic .overflow)

/-- `absorb` with a byte counter that panics when it would reach `2^bits`, having counted to `2^bits - 1`. -/
def absorbs (T : Target) (m : Machine) (data : List U8) : Bool × Machine :=
  if T.checks ∧ 2 ^ T.bits ≤ m.total + data.length then (false, { m with total := 2 ^ T.bits - 1 }) else (true, m.absorb data)

/-- `finish` with a bit count that panics when it would reach `2^bits`. -/
def finishes (T : Target) (m : Machine) : Option (List U8) × Machine :=
  if T.checks ∧ 2 ^ T.bits ≤ 8 * m.total then (none, m)
  else (some (m.finish (8 * m.total % 2 ^ T.bits)).2, (m.finish (8 * m.total % 2 ^ T.bits)).1)

/-- A call on the hash. -/
def shaDoes (T : Target) (m : Machine) : Verif.Props.Sha256.Op → Verif.Source.R Val × Machine
  | .update data => (if (absorbs T m data).1 then .ok .unit else overflowed, (absorbs T m data).2)
  | .digest =>
    match finishes T m with
    | (some d, m') => (.ok (bytes d), m')
    | (none, m') => (overflowed, m')

/-- The answers of the hash, panics among them. -/
def shaCaught (T : Target) : Machine → List Verif.Props.Sha256.Op → List (Verif.Source.R Val)
  | _, [] => []
  | m, op :: ops => (shaDoes T m op).1 :: shaCaught T (shaDoes T m op).2 ops

/-- A call on the two hashes of an HMAC. -/
def hmacDoes (T : Target) (m : Machine × Machine) : Verif.Props.Hmac.Op → Verif.Source.R Val × (Machine × Machine)
  | .update data => (if (absorbs T m.1 data).1 then .ok .unit else overflowed, ((absorbs T m.1 data).2, m.2))
  | .digest =>
    match finishes T m.1 with
    | (none, i) => (overflowed, (i, m.2))
    | (some d, i) =>
      match absorbs T m.2 d with
      | (false, o) => (overflowed, (i, o))
      | (true, o) =>
        match finishes T o with
        | (none, o) => (overflowed, (i, o))
        | (some d, o) => (.ok (bytes d), (i, o))

/-- The answers of the HMAC, panics among them. -/
def hmacCaught (T : Target) : Machine × Machine → List Verif.Props.Hmac.Op → List (Verif.Source.R Val)
  | _, [] => []
  | m, op :: ops => (hmacDoes T m op).1 :: hmacCaught T (hmacDoes T m op).2 ops

/-! ### The source does that -/

/-- A hash of the source stands for an abstract one: it agrees with it, or both have counted too much to finish. -/
structure Rel (T : Target) (s : SHA256) (m : Machine) : Prop where
  len : s.length = m.total % 2 ^ T.bits
  small : T.checks = true → m.total < 2 ^ T.bits
  agree : Verif.Sha256.R T s m ∨ T.checks = true ∧ 2 ^ T.bits ≤ 8 * m.total

theorem Rel.lt {T : Target} {s : SHA256} {m : Machine} (h : Rel T s m) : s.length < 2 ^ T.bits := by
  rw [h.len]; exact Nat.mod_lt _ (Nat.two_pow_pos _)

theorem Rel.total {T : Target} {s : SHA256} {m : Machine} (h : Rel T s m) (hc : T.checks = true) : s.length = m.total := by
  rw [h.len]; exact Nat.mod_eq_of_lt (h.small hc)

theorem machine_of (T : Target) (s : SHA256) (hs : s.length < 2 ^ T.bits) : ∃ m, Verif.Sha256.R T s m ∧ m.total = s.length :=
  ⟨⟨s.h, s.buffer.toList.take (s.length % 64), s.length⟩,
    ⟨rfl, (Nat.mod_eq_of_lt hs).symm, by have := Nat.mod_lt s.length (show 0 < 64 by decide); simp; omega, by simp⟩, rfl⟩

theorem eight_le (T : Target) : 8 ≤ 2 ^ T.bits := by rcases T.bits_cases with h | h <;> rw [h] <;> decide

theorem rel_update (T : Target) (F d : Nat) (s : SHA256) (m : Machine) (h : Rel T s m) (data : List U8) :
    ∃ s', Rel T s' (absorbs T m data).2 ∧
      callU T crate F (d + 4) .sha256_SHA256_update [encSha s, bytes data] =
        (if (absorbs T m data).1 then .ok .unit else overflowed, [encSha s']) ∧
      ((absorbs T m data).1 = true → s.update T data = .ok s') := by
  have hl := left_update T F d s h.lt data
  unfold absorbs
  by_cases hov : T.checks ∧ 2 ^ T.bits ≤ m.total + data.length
  · rw [if_pos hov]
    obtain ⟨m0, hR, ht⟩ := machine_of T s h.lt
    have e := update_overflow T data s m0 hR hov.1 (by rw [ht]; exact h.lt) (by rw [ht, h.total hov.1]; exact hov.2)
    rw [e] at hl
    obtain ⟨l, h1, _, _, h2, h3⟩ := hl
    have hb := eight_le T
    exact ⟨l, ⟨by rw [Nat.mod_eq_of_lt (by simp only; omega)]; simp only; omega, fun _ => by simp only; omega,
      .inr ⟨hov.1, by simp only; omega⟩⟩, h1, fun h => nomatch h⟩
  · rw [if_neg hov]
    have hno : T.checks = false ∨ m.total + data.length < 2 ^ T.bits := by
      rcases hc : T.checks with _ | _
      · exact .inl rfl
      · exact .inr (Nat.not_le.mp fun h => hov ⟨hc, h⟩)
    have hsm : T.checks = true → (m.absorb data).total < 2 ^ T.bits := fun hc => by
      rcases hno with h | h
      · rw [hc] at h; cases h
      · exact h
    rcases h.agree with hR | ⟨hc, hbig⟩
    · obtain ⟨s', e, hR'⟩ := update_R T data s m hR hno
      rw [e] at hl
      exact ⟨s', ⟨hR'.len, hsm, .inl hR'⟩, hl.1, fun _ => e⟩
    · obtain ⟨m0, hR, ht⟩ := machine_of T s h.lt
      obtain ⟨s', e, hR'⟩ := update_R T data s m0 hR (by rw [ht, h.total hc]; exact hno)
      rw [e] at hl
      refine ⟨s', ⟨?_, hsm, .inr ⟨hc, ?_⟩⟩, hl.1, fun _ => e⟩
      · rw [hR'.len]
        show (m0.total + data.length) % _ = (m.total + data.length) % _
        rw [ht, h.total hc]
      · show _ ≤ 8 * (m.total + data.length)
        omega

theorem rel_digest (T : Target) (F d : Nat) (s : SHA256) (m : Machine) (h : Rel T s m) :
    match finishes T m with
    | (some dg, m') => ∃ s' v, Rel T s' m' ∧ s.digest T = .ok (s', v) ∧ v.toList = dg ∧
        callU T crate F (d + 4) .sha256_SHA256_digest [encSha s] = (.ok (bytes dg), [encSha s'])
    | (none, m') => ∃ s', Rel T s' m' ∧ callU T crate F (d + 4) .sha256_SHA256_digest [encSha s] = (overflowed, [encSha s']) := by
  have hl := left_digest T F d s h.lt
  unfold finishes
  by_cases hov : T.checks ∧ 2 ^ T.bits ≤ 8 * m.total
  · rw [if_pos hov]
    obtain ⟨m0, hR, ht⟩ := machine_of T s h.lt
    have e := digest_panic T s m0 hR hov.1 (by rw [← hR.len, h.total hov.1]; omega)
    rw [e] at hl
    obtain ⟨l, h1, _, h2⟩ := hl
    exact ⟨l, ⟨by rw [h2]; exact h.len, h.small, .inr hov⟩, h1⟩
  · rw [if_neg hov]
    have hno : T.checks = false ∨ m.total % 2 ^ T.bits * 8 < 2 ^ T.bits := by
      rcases hc : T.checks with _ | _
      · exact .inl rfl
      · refine .inr ?_
        rw [Nat.mod_eq_of_lt (h.small hc)]
        have := Nat.not_le.mp fun h => hov ⟨hc, h⟩
        omega
    rcases h.agree with hR | hbig
    · obtain ⟨s', v, e, hR', hv⟩ := digest_R T s m hR hno
      rw [e] at hl
      rw [lengthField_eq] at hR' hv
      exact ⟨s', v, ⟨hR'.len, h.small, .inl hR'⟩, e, hv, by rw [hl, hv]⟩
    · exact absurd hbig hov

theorem attempt_one {T : Target} {F d : Nat} {obj obj' : Val} {c : Fn × List Val} {r : Verif.Source.R Val}
    (h : callU T crate F d c.1 (obj :: c.2) = (r, [obj'])) : attempt T F d obj c = (r, obj') := by
  unfold attempt; rw [h]

/-- **C81.** Every history of `update` and `digest` calls on a `SHA256` (src/sha256.rs), going on after panics: the answers, panics
among them, are those of the hash of FIPS 180-4 with a counter of `usize`. -/
theorem C81_sha256 (T : Target) (fuel depth : Nat) (hd : 8 ≤ depth) (ops : List Verif.Props.Sha256.Op) :
    caughtSession T fuel depth (.sha256_SHA256_new, []) (ops.map shaCall) = .ok (shaCaught T .start ops) := by
  obtain ⟨d, rfl⟩ := Nat.exists_eq_add_of_le' hd
  rw [caughtSession, src_new]
  show Except.ok _ = _
  congr 1
  refine attempts_model T fuel (d + 8) (fun m v => ∃ s, v = encSha s ∧ Rel T s m) shaCall (shaDoes T) ?_ (shaCaught T)
    (fun _ => rfl) (fun _ _ _ => rfl) _ _ ⟨_, rfl, ⟨(R_new T).len, fun _ => Nat.two_pow_pos _, .inl (R_new T)⟩⟩ ops
  rintro m _ op ⟨s, rfl, h⟩
  cases op with
  | update data =>
    obtain ⟨s', h1, h2, _⟩ := rel_update T fuel (d + 4) s m h data
    rw [attempt_one (c := shaCall _) h2]
    exact ⟨rfl, s', rfl, h1⟩
  | digest =>
    have h1 := rel_digest T fuel (d + 4) s m h
    unfold shaDoes
    rcases hf : finishes T m with ⟨_ | dg, m'⟩ <;> rw [hf] at h1
    · obtain ⟨s', h1, h2⟩ := h1
      rw [attempt_one (c := shaCall _) h2]
      exact ⟨rfl, s', rfl, h1⟩
    · obtain ⟨s', v, h1, _, _, h2⟩ := h1
      rw [attempt_one (c := shaCall _) h2]
      exact ⟨rfl, s', rfl, h1⟩

/-- **C81.** The same for `HMac` (src/hmac.rs), from the state `HMac::new` gives. -/
theorem C81_hmac (T : Target) (fuel depth : Nat) (hd : 8 ≤ depth) (key : List U8) (ops : List Verif.Props.Hmac.Op)
    (hk : T.checks = false ∨ 8 * key.length < 2 ^ T.bits) :
    let k := Spec.hmacKey (fun m => Spec.Sha256.sha256WithLength (8 * m.length % 2 ^ T.bits) m) key
    caughtSession T fuel depth (.hmac_HMac_new, [bytes key]) (ops.map hmacCall) =
      .ok (hmacCaught T (Machine.start.absorb (k.map (· ^^^ 0x36)), Machine.start.absorb (k.map (· ^^^ 0x5c))) ops) := by
  obtain ⟨d, rfl⟩ := Nat.exists_eq_add_of_le' hd
  intro k
  obtain ⟨hm, e, hK⟩ := new_keyed T key hk
  have hl : k.length = 64 := hmacKey_length T key
  have hsmall : ∀ f : U8 → U8, (Machine.start.absorb (k.map f)).total < 2 ^ T.bits := by
    intro f
    rw [absorb_start_total, List.length_map, hl]
    rcases T.bits_cases with h | h <;> rw [h] <;> decide
  have hi : Verif.Sha256.R T hm.inner (Machine.start.absorb (k.map (· ^^^ 0x36))) := by
    have := hK.inner
    rwa [List.append_nil] at this
  rw [caughtSession, src_HMac_new, e]
  show Except.ok _ = _
  congr 1
  refine attempts_model T fuel (d + 8) (fun m v => ∃ s : HMac, v = encHMac s ∧ Rel T s.inner m.1 ∧ Rel T s.outer m.2) hmacCall
    (hmacDoes T) ?_ (hmacCaught T) (fun _ => rfl) (fun _ _ _ => rfl) _ _
    ⟨hm, rfl, ⟨hi.len, fun _ => hsmall _, .inl hi⟩, ⟨hK.outer.len, fun _ => hsmall _, .inl hK.outer⟩⟩ ops
  rintro ⟨mi, mo⟩ _ op ⟨s, rfl, h, h'⟩
  cases op with
  | update data =>
    obtain ⟨s', h1, h2, h3⟩ := rel_update T fuel (d + 3) s.inner mi h data
    unfold hmacDoes
    dsimp only
    rcases ha : absorbs T mi data with ⟨_ | _, m'⟩ <;> rw [ha] at h1 h2 h3
    · rw [attempt_one (c := hmacCall (.update data)) (left_HMac_update T fuel (d + 3) s data h2)]
      exact ⟨rfl, ⟨s', s.outer⟩, rfl, h1, h'⟩
    · have hu := src_HMac_update T fuel (d + 3) s data
      rw [HMac.update, h3 rfl] at hu
      rw [attempt_one (c := hmacCall (.update data)) (callU_ok (v := .unit) (outs := [encHMac ⟨s', s.outer⟩]) hu)]
      exact ⟨rfl, ⟨s', s.outer⟩, rfl, h1, h'⟩
  | digest =>
    have h1 := rel_digest T fuel (d + 3) s.inner mi h
    unfold hmacDoes
    dsimp only
    rcases hf : finishes T mi with ⟨_ | dg, i⟩ <;> rw [hf] at h1
    · obtain ⟨s', h1, h2⟩ := h1
      rw [attempt_one (c := hmacCall .digest) (left_HMac_digest_inner T fuel (d + 3) s h2)]
      exact ⟨rfl, ⟨s', s.outer⟩, rfl, h1, h'⟩
    · obtain ⟨si, v, h1, e1, rfl, _⟩ := h1
      obtain ⟨so, h2, h3, e2⟩ := rel_update T fuel (d + 3) s.outer mo h' v.toList
      dsimp only
      rcases ha : absorbs T mo v.toList with ⟨_ | _, o⟩ <;> rw [ha] at h2 h3 e2
      · rw [attempt_one (c := hmacCall .digest) (left_HMac_digest_update T fuel (d + 3) s e1 h3)]
        exact ⟨rfl, ⟨si, so⟩, rfl, h1, h2⟩
      · have h4 := rel_digest T fuel (d + 3) so o h2
        dsimp only
        rcases hf2 : finishes T o with ⟨_ | dg2, o2⟩ <;> rw [hf2] at h4
        · obtain ⟨s3, h4, h5⟩ := h4
          rw [attempt_one (c := hmacCall .digest) (left_HMac_digest_outer T fuel (d + 3) s e1 (e2 rfl) h5)]
          exact ⟨rfl, ⟨si, s3⟩, rfl, h1, h4⟩
        · obtain ⟨s3, v3, h4, e3, rfl, _⟩ := h4
          have hd := src_HMac_digest T fuel (d + 3) s
          rw [HMac.digest, e1] at hd
          simp only [ok_bind, e2 rfl, e3] at hd
          rw [attempt_one (c := hmacCall .digest) (callU_ok (v := bytes v3.toList) (outs := [encHMac ⟨si, s3⟩]) hd)]
          exact ⟨rfl, ⟨si, s3⟩, rfl, h1, h4⟩

/-! ### What that means -/

/-- A hash that has counted too many bytes for `digest`. -/
def Full (T : Target) (m : Machine) : Prop := T.checks = true ∧ 2 ^ T.bits ≤ 8 * m.total

theorem absorbs_full {T : Target} {m : Machine} (h : Full T m) (data : List U8) : Full T (absorbs T m data).2 := by
  have hb := eight_le T
  obtain ⟨hc, h⟩ := h
  unfold absorbs
  split
  · exact ⟨hc, by simp only; omega⟩
  · exact ⟨hc, by simp only [Machine.absorb]; omega⟩

theorem absorbs_false {T : Target} {m : Machine} {data : List U8} (h : (absorbs T m data).1 = false) :
    Full T (absorbs T m data).2 := by
  have hb := eight_le T
  unfold absorbs at h ⊢
  split
  · rename_i hc; exact ⟨hc.1, by simp only; omega⟩
  · rename_i hc; rw [if_neg hc] at h; cases h

theorem finishes_full {T : Target} {m : Machine} (h : Full T m) : finishes T m = (none, m) := if_pos h

theorem finishes_some {T : Target} {m : Machine} (h : ¬ Full T m) :
    finishes T m = (some (m.finish (8 * m.total % 2 ^ T.bits)).2, (m.finish (8 * m.total % 2 ^ T.bits)).1) := if_neg h

theorem absorbs_true {T : Target} {m : Machine} {data : List U8} (h : ¬ (absorbs T m data).1 = false) :
    absorbs T m data = (true, m.absorb data) := by
  unfold absorbs at h ⊢
  split
  · rename_i hc; rw [if_pos hc] at h; exact absurd rfl h
  · rfl

theorem finishes_none {T : Target} {m : Machine} (h : (finishes T m).1 = none) : Full T (finishes T m).2 := by
  unfold finishes at h ⊢
  split
  · rename_i hc; exact hc
  · rename_i hc; rw [if_neg hc] at h; cases h

theorem shaDoes_full {T : Target} {m : Machine} (h : Full T m) (op : Verif.Props.Sha256.Op) : Full T (shaDoes T m op).2 := by
  cases op with
  | update data => exact absorbs_full h data
  | digest => rw [shaDoes, finishes_full h]; exact h

/-- A panic fills the hash. -/
theorem shaDoes_panic {T : Target} {m : Machine} {op : Verif.Props.Sha256.Op} {e : Err} (h : (shaDoes T m op).1 = .error e) :
    Full T (shaDoes T m op).2 := by
  cases op with
  | update data =>
    refine absorbs_false ?_
    rcases ha : (absorbs T m data).1 with _ | _
    · rfl
    · rw [shaDoes] at h
      dsimp only at h
      rw [ha] at h
      cases h
  | digest =>
    rw [shaDoes] at h ⊢
    rcases hf : finishes T m with ⟨_ | dg, m'⟩ <;> rw [hf] at h
    · have := finishes_none (T := T) (m := m) (by rw [hf])
      rwa [hf] at this
    · cases h

theorem shaCaught_full {T : Target} {m : Machine} (h : Full T m) (ops : List Verif.Props.Sha256.Op) {j : Nat}
    (hj : ops[j]? = some .digest) : (shaCaught T m ops)[j]? = some overflowed := by
  induction ops generalizing m j with
  | nil => cases hj
  | cons op ops ih =>
    cases j with
    | zero =>
      cases hj
      show some (shaDoes T m .digest).1 = _
      rw [shaDoes, finishes_full h]
    | succ j => exact ih (shaDoes_full h op) hj

/-- **C81.** A `SHA256` one of whose methods panicked never gives a digest again: every later `digest` panics. -/
theorem C81_sha256_stays_broken (T : Target) (fuel depth : Nat) (hd : 8 ≤ depth) (ops : List Verif.Props.Sha256.Op)
    (answers : List (Verif.Source.R Val))
    (h : caughtSession T fuel depth (.sha256_SHA256_new, []) (ops.map shaCall) = .ok answers)
    {i j : Nat} {e : Err} (hij : i < j) (hi : answers[i]? = some (.error e)) (hj : ops[j]? = some .digest) :
    answers[j]? = some (.error (.panic .overflow)) := by
  rw [C81_sha256 T fuel depth hd] at h
  cases h
  generalize Machine.start = m at hi ⊢
  induction ops generalizing m i j with
  | nil => cases hj
  | cons op ops ih =>
    obtain ⟨j, rfl⟩ : ∃ j', j = j' + 1 := ⟨j - 1, by omega⟩
    cases i with
    | zero => exact shaCaught_full (shaDoes_panic (Option.some.inj hi)) ops hj
    | succ i => exact ih (Nat.lt_of_succ_lt_succ hij) hj _ hi

theorem shaCaught_units {T : Target} {m : Machine} (h : Full T m) (ops : List Verif.Props.Sha256.Op) (m' : Machine) {i : Nat} {v : Val}
    (hi : (shaCaught T m ops)[i]? = some (.ok v)) : (shaAnswers T.bits ops m')[i]? = some v := by
  induction ops generalizing m m' i with
  | nil => cases hi
  | cons op ops ih =>
    cases i with
    | zero =>
      have hi := Option.some.inj hi
      cases op with
      | update data =>
        rw [shaDoes] at hi
        dsimp only at hi
        split at hi <;> cases hi
        rfl
      | digest =>
        rw [shaDoes, finishes_full h] at hi
        cases hi
    | succ i =>
      cases op with
      | update data => exact ih (shaDoes_full h _) _ hi
      | digest => exact ih (shaDoes_full h _) _ hi

/-- **C81.** No panic makes a later answer wrong: whatever `update` and `digest` return, before or after panics, is what
the abstract hash of FIPS 180-4 returns there. -/
theorem C81_sha256_right (T : Target) (fuel depth : Nat) (hd : 8 ≤ depth) (ops : List Verif.Props.Sha256.Op)
    (answers : List (Verif.Source.R Val))
    (h : caughtSession T fuel depth (.sha256_SHA256_new, []) (ops.map shaCall) = .ok answers)
    {i : Nat} {v : Val} (hi : answers[i]? = some (.ok v)) : (shaAnswers T.bits ops .start)[i]? = some v := by
  rw [C81_sha256 T fuel depth hd] at h
  cases h
  generalize Machine.start = m at hi ⊢
  induction ops generalizing m i with
  | nil => cases hi
  | cons op ops ih =>
    cases op with
    | update data =>
      cases i with
      | zero =>
        have hi := Option.some.inj hi
        rw [shaDoes] at hi
        dsimp only at hi
        split at hi <;> cases hi
        rfl
      | succ i =>
        have hi : (shaCaught T (absorbs T m data).2 ops)[i]? = some (.ok v) := hi
        by_cases ha : (absorbs T m data).1 = false
        · exact shaCaught_units (absorbs_false ha) ops _ hi
        · rw [absorbs_true ha] at hi
          exact ih _ hi
    | digest =>
      by_cases hf : Full T m
      · cases i with
        | zero =>
          have hi := Option.some.inj hi
          rw [shaDoes, finishes_full hf] at hi
          cases hi
        | succ i => exact shaCaught_units (shaDoes_full hf .digest) ops _ hi
      · have e : shaDoes T m .digest = (.ok (bytes (m.finish (8 * m.total % 2 ^ T.bits)).2), (m.finish (8 * m.total % 2 ^ T.bits)).1) := by
          rw [shaDoes, finishes_some hf]
        cases i with
        | zero =>
          have hi := Option.some.inj hi
          rw [e] at hi
          cases hi
          rfl
        | succ i =>
          have hi : (shaCaught T (shaDoes T m .digest).2 ops)[i]? = some (.ok v) := hi
          rw [e] at hi
          exact ih _ hi

/-- An HMAC one of whose hashes is full. -/
def FullH (T : Target) (m : Machine × Machine) : Prop := Full T m.1 ∨ Full T m.2

theorem finishes_keeps {T : Target} {m : Machine} (h : Full T m) : Full T (finishes T m).2 := by
  rw [finishes_full h]; exact h

/-- On an HMAC with a full hash `digest` panics, and a hash stays full. -/
theorem hmacDoes_full {T : Target} {m : Machine × Machine} (h : FullH T m) (op : Verif.Props.Hmac.Op) :
    FullH T (hmacDoes T m op).2 ∧ (op = .digest → (hmacDoes T m op).1 = overflowed) := by
  cases op with
  | update data => exact ⟨h.imp (fun h => absorbs_full h data) id, fun h => nomatch h⟩
  | digest =>
    rw [hmacDoes]
    by_cases h1 : Full T m.1
    · rw [finishes_full h1]
      exact ⟨.inl h1, fun _ => rfl⟩
    · rw [finishes_some h1]
      have h2 := h.resolve_left h1
      generalize (m.1.finish (8 * m.1.total % 2 ^ T.bits)).2 = dg
      have h3 := absorbs_full h2 dg
      dsimp only
      rcases ha : absorbs T m.2 dg with ⟨_ | _, o⟩ <;> rw [ha] at h3 <;> dsimp only
      · exact ⟨.inr h3, fun _ => rfl⟩
      · rw [finishes_full h3]
        exact ⟨.inr h3, fun _ => rfl⟩

/-- A panic fills one of the hashes. -/
theorem hmacDoes_panic {T : Target} {m : Machine × Machine} {op : Verif.Props.Hmac.Op} {e : Err} (h : (hmacDoes T m op).1 = .error e) :
    FullH T (hmacDoes T m op).2 := by
  cases op with
  | update data =>
    refine .inl (absorbs_false ?_)
    rcases ha : (absorbs T m.1 data).1 with _ | _
    · rfl
    · rw [hmacDoes] at h
      dsimp only at h
      rw [ha] at h
      cases h
  | digest =>
    by_cases hF : FullH T m
    · exact (hmacDoes_full hF _).1
    have h1 : ¬ Full T m.1 := fun h => hF (.inl h)
    rw [hmacDoes, finishes_some h1] at h ⊢
    generalize (m.1.finish (8 * m.1.total % 2 ^ T.bits)).2 = dg at h ⊢
    dsimp only at h ⊢
    by_cases ha : (absorbs T m.2 dg).1 = false
    · have h3 := absorbs_false ha
      rcases hb : absorbs T m.2 dg with ⟨_ | _, o⟩
      · rw [hb] at h3; exact .inr h3
      · rw [hb] at ha; cases ha
    · rw [absorbs_true ha] at h ⊢
      dsimp only at h ⊢
      by_cases hf : Full T (m.2.absorb dg)
      · rw [finishes_full hf]; exact .inr hf
      · rw [finishes_some hf] at h; cases h

theorem hmacCaught_full {T : Target} {m : Machine × Machine} (h : FullH T m) (ops : List Verif.Props.Hmac.Op) {j : Nat}
    (hj : ops[j]? = some .digest) : (hmacCaught T m ops)[j]? = some overflowed := by
  induction ops generalizing m j with
  | nil => cases hj
  | cons op ops ih =>
    cases j with
    | zero =>
      cases hj
      exact congrArg some ((hmacDoes_full h _).2 rfl)
    | succ j => exact ih (hmacDoes_full h op).1 hj

/-- **C81.** An `HMac` one of whose methods panicked never gives a MAC again: every later `digest` panics. -/
theorem C81_hmac_stays_broken (T : Target) (fuel depth : Nat) (hd : 8 ≤ depth) (key : List U8) (ops : List Verif.Props.Hmac.Op)
    (hk : T.checks = false ∨ 8 * key.length < 2 ^ T.bits) (answers : List (Verif.Source.R Val))
    (h : caughtSession T fuel depth (.hmac_HMac_new, [bytes key]) (ops.map hmacCall) = .ok answers)
    {i j : Nat} {e : Err} (hij : i < j) (hi : answers[i]? = some (.error e)) (hj : ops[j]? = some .digest) :
    answers[j]? = some (.error (.panic .overflow)) := by
  rw [C81_hmac T fuel depth hd key ops hk] at h
  cases h
  generalize (Machine.start.absorb _, Machine.start.absorb _) = m at hi ⊢
  induction ops generalizing m i j with
  | nil => cases hj
  | cons op ops ih =>
    obtain ⟨j, rfl⟩ : ∃ j', j = j' + 1 := ⟨j - 1, by omega⟩
    cases i with
    | zero => exact hmacCaught_full (hmacDoes_panic (Option.some.inj hi)) ops hj
    | succ i => exact ih (Nat.lt_of_succ_lt_succ hij) hj _ hi

theorem hmacDoes_update {T : Target} {m : Machine × Machine} {data : List U8} {v : Val}
    (h : (hmacDoes T m (.update data)).1 = .ok v) : v = .unit := by
  rw [hmacDoes] at h
  dsimp only at h
  split at h <;> cases h
  rfl

theorem hmacCaught_units {T : Target} {m : Machine × Machine} (h : FullH T m) (ops : List Verif.Props.Hmac.Op) (i o : Machine) {n : Nat}
    {v : Val} (hn : (hmacCaught T m ops)[n]? = some (.ok v)) :
    (hmacAnswers ops (Verif.Props.Hmac.specRun T.bits ops i o))[n]? = some v := by
  induction ops generalizing m i o n with
  | nil => cases hn
  | cons op ops ih =>
    cases n with
    | zero =>
      have hn := Option.some.inj hn
      cases op with
      | update data =>
        rw [hmacDoes_update hn]
        rfl
      | digest =>
        rw [(hmacDoes_full h _).2 rfl] at hn
        cases hn
    | succ n =>
      cases op with
      | update data => exact ih (hmacDoes_full h _).1 _ _ hn
      | digest => exact ih (hmacDoes_full h _).1 _ _ hn

theorem hmacDoes_ok {T : Target} {i o : Machine} {v : Val} (h : (hmacDoes T (i, o) .digest).1 = .ok v) :
    let o1 := o.absorb (i.finish (8 * i.total % 2 ^ T.bits)).2
    v = bytes (o1.finish (8 * o1.total % 2 ^ T.bits)).2 ∧
      (hmacDoes T (i, o) .digest).2 = ((i.finish (8 * i.total % 2 ^ T.bits)).1, (o1.finish (8 * o1.total % 2 ^ T.bits)).1) := by
  by_cases h1 : Full T i
  · rw [(hmacDoes_full (.inl h1) .digest).2 rfl] at h
    cases h
  rw [hmacDoes, finishes_some h1] at h ⊢
  generalize (i.finish (8 * i.total % 2 ^ T.bits)).2 = dg at h ⊢
  dsimp only at h ⊢
  by_cases ha : (absorbs T o dg).1 = false
  · rcases hb : absorbs T o dg with ⟨_ | _, o'⟩
    · rw [hb] at h; cases h
    · rw [hb] at ha; cases ha
  · rw [absorbs_true ha] at h ⊢
    dsimp only at h ⊢
    by_cases hf : Full T (o.absorb dg)
    · rw [finishes_full hf] at h; cases h
    · rw [finishes_some hf] at h ⊢; cases h
      exact ⟨rfl, rfl⟩

/-- **C81.** No panic makes a later MAC wrong: whatever `update` and `digest` of an `HMac` return, before or after panics,
is what the two abstract hashes return there. -/
theorem C81_hmac_right (T : Target) (fuel depth : Nat) (hd : 8 ≤ depth) (key : List U8) (ops : List Verif.Props.Hmac.Op)
    (hk : T.checks = false ∨ 8 * key.length < 2 ^ T.bits) (answers : List (Verif.Source.R Val))
    (h : caughtSession T fuel depth (.hmac_HMac_new, [bytes key]) (ops.map hmacCall) = .ok answers)
    {n : Nat} {v : Val} (hn : answers[n]? = some (.ok v)) :
    let k := Spec.hmacKey (fun m => Spec.Sha256.sha256WithLength (8 * m.length % 2 ^ T.bits) m) key
    (hmacAnswers ops (Verif.Props.Hmac.specRun T.bits ops (Machine.start.absorb (k.map (· ^^^ 0x36)))
      (Machine.start.absorb (k.map (· ^^^ 0x5c)))))[n]? = some v := by
  rw [C81_hmac T fuel depth hd key ops hk] at h
  cases h
  intro k
  generalize Machine.start.absorb (k.map (· ^^^ 0x36)) = i at hn ⊢
  generalize Machine.start.absorb (k.map (· ^^^ 0x5c)) = o at hn ⊢
  clear hk
  induction ops generalizing i o n with
  | nil => cases hn
  | cons op ops ih =>
    rcases hs : (hmacDoes T (i, o) op).1 with e | w
    · have hF := hmacDoes_panic hs
      cases n with
      | zero =>
        have hn : some (hmacDoes T (i, o) op).1 = _ := hn
        rw [hs] at hn
        cases hn
      | succ n =>
        cases op with
        | update data => exact hmacCaught_units hF ops _ _ hn
        | digest => exact hmacCaught_units hF ops _ _ hn
    · cases op with
      | update data =>
        have hs' : (absorbs T i data).1 = true := by
          rw [hmacDoes] at hs
          dsimp only at hs
          split at hs
          · assumption
          · cases hs
        cases n with
        | zero =>
          rw [hmacDoes_update (Option.some.inj hn)]
          rfl
        | succ n =>
          have hn : (hmacCaught T ((absorbs T i data).2, o) ops)[n]? = some (.ok v) := hn
          rw [absorbs_true (by rw [hs']; exact fun h => nomatch h)] at hn
          exact ih _ _ hn
      | digest =>
        obtain ⟨rfl, hs'⟩ := hmacDoes_ok hs
        cases n with
        | zero =>
          have hn : some (hmacDoes T (i, o) .digest).1 = _ := hn
          rw [hs] at hn
          cases hn
          rfl
        | succ n =>
          have hn : (hmacCaught T (hmacDoes T (i, o) .digest).2 ops)[n]? = some (.ok v) := hn
          rw [hs'] at hn
          exact ih _ _ hn

/-! ### A case -/

/-- **C81.** On a 32-bit target with overflow checks: after `2^29` bytes `digest` panics; another byte is taken, and `digest` panics again. -/
theorem C81_case (fuel depth : Nat) (hd : 8 ≤ depth) (data : List U8) (hl : data.length = 2 ^ 29) :
    caughtSession ⟨.w32, true⟩ fuel depth (.sha256_SHA256_new, []) ([.update data, .digest, .update [1], .digest].map shaCall) =
      .ok [.ok .unit, overflowed, .ok .unit, overflowed] := by
  rw [C81_sha256 _ fuel depth hd]
  have e1 : absorbs ⟨.w32, true⟩ .start data = (true, Machine.start.absorb data) := by
    refine if_neg ?_
    rw [hl]
    decide
  have t : (Machine.start.absorb data).total = 2 ^ 29 := by rw [absorb_start_total, hl]
  generalize Machine.start.absorb data = m at e1 t
  have e2 : Full ⟨.w32, true⟩ m := ⟨rfl, by rw [t]; decide⟩
  have e3 : absorbs ⟨.w32, true⟩ m [1] = (true, m.absorb [1]) := by
    refine if_neg ?_
    rw [t]
    decide
  have e4 : Full ⟨.w32, true⟩ (m.absorb [1]) := by have := absorbs_full e2 [1]; rwa [e3] at this
  simp only [shaCaught, shaDoes, e1, finishes_full e2, e3, finishes_full e4, if_true]

/-- The hypotheses of `C81_sha256_stays_broken` and `C81_sha256_right` are met by that session: the digest is refused, and so is the next one,
while the first `update` returned what it should. -/
example (data : List U8) (hl : data.length = 2 ^ 29) :=
  have h := C81_case 0 8 (Nat.le_refl 8) data hl
  And.intro (C81_sha256_stays_broken ⟨.w32, true⟩ 0 8 (Nat.le_refl 8) _ _ h (i := 1) (j := 3) (by decide) rfl rfl)
    (C81_sha256_right ⟨.w32, true⟩ 0 8 (Nat.le_refl 8) _ _ h (i := 0) rfl)

/-- The same happens to an `HMac` that got `2^29` bytes: the hypotheses of the theorems about it are met. -/
example (key data : List U8) (hk : 8 * key.length < 2 ^ 32) (hl : data.length = 2 ^ 29) : ∃ answers,
    caughtSession ⟨.w32, true⟩ 0 8 (.hmac_HMac_new, [bytes key]) ([.update data, .digest, .update [1], .digest].map hmacCall) = .ok answers ∧
      answers[0]? = some (.ok .unit) ∧ answers[1]? = some overflowed ∧ answers[3]? = some overflowed := by
  have h := C81_hmac ⟨.w32, true⟩ 0 8 (Nat.le_refl 8) key [.update data, .digest, .update [1], .digest] (.inr hk)
  dsimp only at h
  generalize hi : (Spec.Sha256.Machine.start.absorb (List.map (fun x => x ^^^ 54) _)) = i at h
  have ht : i.total = 64 := by rw [← hi, Verif.Sha256.absorb_start_total, List.length_map]; exact Verif.Hmac.hmacKey_length ⟨.w32, true⟩ key
  have e1 : absorbs ⟨.w32, true⟩ i data = (true, i.absorb data) := by
    refine if_neg ?_
    rw [hl, ht]
    decide
  have e2 : Full ⟨.w32, true⟩ (i.absorb data) := ⟨rfl, by
    show 2 ^ 32 ≤ 8 * (i.total + data.length)
    rw [hl, ht]
    decide⟩
  refine ⟨_, h, ?_, ?_, C81_hmac_stays_broken ⟨.w32, true⟩ 0 8 (Nat.le_refl 8) key _ (.inr hk) _ h (i := 1) (j := 3) (e := .panic .overflow) (by decide) ?_ rfl⟩
  all_goals simp only [hmacCaught, hmacDoes, e1, finishes_full e2, List.getElem?_cons_zero, List.getElem?_cons_succ, if_true, overflowed]

end Verif.Props.AfterPanic
