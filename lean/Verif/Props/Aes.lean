import Verif.Proof.Aes

/-! Properties of `aes.rs`: C22, C23, C24, C25, C26, C27 (see also `Verif.Props.AesPoly` for C27). -/

namespace Verif.Props.Aes
open Verif Verif.Aes

/-! ### Initialisation -/

/-- An instance holds the key schedule of `key`. -/
def Holds (self : AES) (key : List U8) : Prop :=
  (key.length = 16 ∨ key.length = 24 ∨ key.length = 32) ∧ self.round_count = key.length / 4 + 6 ∧
    ∃ ws, self.round_keys = some ws ∧ IsSchedule (key.length / 4) key (4 * (self.round_count + 1)) ws

theorem init_valid (T : Target) (self : AES) (key : List U8)
    (hk : key.length = 16 ∨ key.length = 24 ∨ key.length = 32) :
    ∃ self', self.init T key = .ok (self', .ok ()) ∧ Holds self' key := by
  obtain ⟨ws, h1, h2⟩ := expand_key_ok T key (key.length / 4) (key.length / 4 + 6) (by omega) (by omega) (by omega) (by omega)
  refine ⟨{ round_count := key.length / 4 + 6, round_keys := some ws }, ?_, hk, rfl, ws, rfl, h2⟩
  unfold AES.init
  rcases hk with h | h | h
  all_goals
    simp only [h] at h1 ⊢
    rw [h1]
    rfl

theorem init_invalid (T : Target) (self : AES) (key : List U8)
    (hk : ¬(key.length = 16 ∨ key.length = 24 ∨ key.length = 32)) :
    self.init T key = .ok (self, .error .InvalidKeySize) := by
  unfold AES.init
  simp only []
  split
  · omega
  · omega
  · omega
  · rfl

theorem Holds.encrypt {self : AES} {key : List U8} (h : Holds self key) (b : Vector U8 16) :
    ∃ o, self.encrypt b = .ok (.ok o) ∧ o.toList = Spec.Aes.encrypt key b.toList := by
  obtain ⟨hl, hc, ws, hw, hs⟩ := h
  obtain ⟨o, h1, h2⟩ := encrypt_ok self ws _ hw hs.2 (Nat.le_of_eq hs.1.symm) (by omega) b
  exact ⟨o, h1, by rw [h2, hc]; rfl⟩

theorem Holds.decrypt {self : AES} {key : List U8} (h : Holds self key) (b : Vector U8 16) :
    ∃ o, self.decrypt b = .ok (.ok o) ∧ o.toList = Spec.Aes.decrypt key b.toList := by
  obtain ⟨hl, hc, ws, hw, hs⟩ := h
  obtain ⟨o, h1, h2⟩ := decrypt_ok self ws _ hw hs.2 (Nat.le_of_eq hs.1.symm) (by omega) b
  exact ⟨o, h1, by rw [h2, hc]; rfl⟩

theorem holds_of_init {T : Target} {self self' : AES} {key : List U8} (h : self.init T key = .ok (self', .ok ())) :
    Holds self' key := by
  by_cases hk : key.length = 16 ∨ key.length = 24 ∨ key.length = 32
  · obtain ⟨s, h1, h2⟩ := init_valid T self key hk
    rw [h1] at h
    injection h with h
    injection h with h _
    exact h ▸ h2
  · rw [init_invalid T self key hk] at h
    injection h with h
    injection h with _ h
    cases h

/-! ### C22, C23, C24 -/

/-- C22: after a successful `init`, `encrypt` returns the FIPS-197 encryption of the block and does not panic. -/
theorem C22_aes_encrypt (T : Target) (self self' : AES) (key : List U8) (h : self.init T key = .ok (self', .ok ()))
    (b : Vector U8 16) : ∃ o, self'.encrypt b = .ok (.ok o) ∧ o.toList = Spec.Aes.encrypt key b.toList :=
  (holds_of_init h).encrypt b

/-- C23: after a successful `init`, `decrypt` returns the FIPS-197 inverse cipher of the block and does not panic. -/
theorem C23_aes_decrypt (T : Target) (self self' : AES) (key : List U8) (h : self.init T key = .ok (self', .ok ()))
    (b : Vector U8 16) : ∃ o, self'.decrypt b = .ok (.ok o) ∧ o.toList = Spec.Aes.decrypt key b.toList :=
  (holds_of_init h).decrypt b

theorem Holds.dec_enc {self : AES} {key : List U8} (h : Holds self key) (b : Vector U8 16) :
    ∃ o, self.encrypt b = .ok (.ok o) ∧ self.decrypt o = .ok (.ok b) := by
  obtain ⟨o, h1, h2⟩ := h.encrypt b
  obtain ⟨o', h3, h4⟩ := h.decrypt o
  refine ⟨o, h1, ?_⟩
  have : o' = b := by
    apply Vector.toList_inj.1
    rw [h4, h2]
    exact invCipher_cipher _ _ _
  rw [h3, this]

theorem Holds.enc_dec {self : AES} {key : List U8} (h : Holds self key) (b : Vector U8 16) :
    ∃ o, self.decrypt b = .ok (.ok o) ∧ self.encrypt o = .ok (.ok b) := by
  obtain ⟨o, h1, h2⟩ := h.decrypt b
  obtain ⟨o', h3, h4⟩ := h.encrypt o
  refine ⟨o, h1, ?_⟩
  have : o' = b := by
    apply Vector.toList_inj.1
    rw [h4, h2]
    exact cipher_invCipher _ _ _
  rw [h3, this]

/-- C24: decryption undoes encryption. -/
theorem C24_decrypt_encrypt (T : Target) (self self' : AES) (key : List U8) (h : self.init T key = .ok (self', .ok ()))
    (b : Vector U8 16) : ∃ o, self'.encrypt b = .ok (.ok o) ∧ self'.decrypt o = .ok (.ok b) :=
  (holds_of_init h).dec_enc b

/-- C24: encryption undoes decryption. -/
theorem C24_encrypt_decrypt (T : Target) (self self' : AES) (key : List U8) (h : self.init T key = .ok (self', .ok ()))
    (b : Vector U8 16) : ∃ o, self'.decrypt b = .ok (.ok o) ∧ self'.encrypt o = .ok (.ok b) :=
  (holds_of_init h).enc_dec b

/-- C24: encryption is a permutation of the blocks: a bijective total function `f` describes it. -/
theorem C24_permutation (T : Target) (self self' : AES) (key : List U8) (h : self.init T key = .ok (self', .ok ())) :
    ∃ f : Vector U8 16 → Vector U8 16, (∀ b, self'.encrypt b = .ok (.ok (f b))) ∧
      (∀ b c, f b = f c → b = c) ∧ (∀ o, ∃ b, f b = o) := by
  obtain ⟨f, hf⟩ : ∃ f : Vector U8 16 → Vector U8 16, ∀ b, self'.encrypt b = .ok (.ok (f b)) ∧
      self'.decrypt (f b) = .ok (.ok b) :=
    ⟨fun b => (C24_decrypt_encrypt T self self' key h b).choose,
      fun b => (C24_decrypt_encrypt T self self' key h b).choose_spec⟩
  refine ⟨f, fun b => (hf b).1, ?_, ?_⟩
  · intro b c e
    have h1 := (hf b).2
    have h2 := (hf c).2
    rw [e, h2] at h1
    injection h1 with h1
    injection h1 with h1
    exact h1.symm
  · intro o
    obtain ⟨b, _, h2⟩ := C24_encrypt_decrypt T self self' key h o
    refine ⟨b, ?_⟩
    have h1 := (hf b).1
    rw [h2] at h1
    injection h1 with h1
    injection h1 with h1
    exact h1.symm

/-- The theorems C22 to C24 apply to an instance that got two keys, one after the other. -/
example (T : Target) : ∃ a b, AES.new.init T (List.replicate 16 0) = .ok (a, .ok ()) ∧ a.init T (List.replicate 32 7) = .ok (b, .ok ()) ∧
    ∀ x, (∃ o, b.encrypt x = .ok (.ok o) ∧ o.toList = Spec.Aes.encrypt (List.replicate 32 7) x.toList) ∧
      (∃ o, b.decrypt x = .ok (.ok o) ∧ o.toList = Spec.Aes.decrypt (List.replicate 32 7) x.toList) ∧
      (∃ o, b.encrypt x = .ok (.ok o) ∧ b.decrypt o = .ok (.ok x)) ∧ ∃ o, b.decrypt x = .ok (.ok o) ∧ b.encrypt o = .ok (.ok x) := by
  obtain ⟨a, ha, _⟩ := init_valid T AES.new (List.replicate 16 0) (Or.inl (by simp))
  obtain ⟨b, hb, _⟩ := init_valid T a (List.replicate 32 7) (Or.inr (Or.inr (by simp)))
  have := C24_permutation T a b _ hb
  exact ⟨a, b, ha, hb, fun x => ⟨C22_aes_encrypt T a b _ hb x, C23_aes_decrypt T a b _ hb x, C24_decrypt_encrypt T a b _ hb x,
    C24_encrypt_decrypt T a b _ hb x⟩⟩

/-- Two different keys of the same call sequence are both usable: the hypotheses of C22-C24 are met. -/
example : ∃ a b, AES.new.init ⟨.w32, true⟩ (List.replicate 16 0) = .ok (a, .ok ()) ∧
    a.init ⟨.w32, true⟩ (List.replicate 32 7) = .ok (b, .ok ()) ∧ a ≠ b := by
  obtain ⟨a, ha, ha1⟩ := init_valid ⟨.w32, true⟩ AES.new (List.replicate 16 0) (Or.inl (by simp))
  obtain ⟨b, hb, hb1⟩ := init_valid ⟨.w32, true⟩ a (List.replicate 32 7) (Or.inr (Or.inr (by simp)))
  refine ⟨a, b, ha, hb, ?_⟩
  intro e
  have h1 := ha1.2.1
  have h2 := hb1.2.1
  rw [e, h2] at h1
  simp at h1

/-! ### C25, C26: histories -/

/-- C25: `init` succeeds exactly for the three key sizes; otherwise it returns `InvalidKeySize` and the instance is what it
was. -/
theorem C25_init (T : Target) (self : AES) (key : List U8) :
    ((key.length = 16 ∨ key.length = 24 ∨ key.length = 32) ∧ ∃ self', self.init T key = .ok (self', .ok ())) ∨
    (¬(key.length = 16 ∨ key.length = 24 ∨ key.length = 32) ∧
      self.init T key = .ok (self, .error .InvalidKeySize)) := by
  by_cases hk : key.length = 16 ∨ key.length = 24 ∨ key.length = 32
  · obtain ⟨s, h, _⟩ := init_valid T self key hk
    exact Or.inl ⟨hk, s, h⟩
  · exact Or.inr ⟨hk, init_invalid T self key hk⟩

/-- A call on an AES instance. -/
inductive Call where
  | init (key : List U8)
  | encrypt (b : Vector U8 16)
  | decrypt (b : Vector U8 16)

/-- What a call returns: nothing or a block, or an error. -/
abbrev Result := Except AESError (List U8)

/-- The calls are made one after the other on the same instance. -/
def run (T : Target) : AES → List Call → M (AES × List Result)
  | self, [] => return (self, [])
  | self, .init key :: cs => do
    let (self, r) ← self.init T key
    let (self, rs) ← run T self cs
    return (self, (match r with | .ok () => .ok [] | .error e => .error e) :: rs)
  | self, .encrypt b :: cs => do
    let r ← self.encrypt b
    let (self, rs) ← run T self cs
    return (self, (match r with | .ok o => .ok o.toList | .error e => .error e) :: rs)
  | self, .decrypt b :: cs => do
    let r ← self.decrypt b
    let (self, rs) ← run T self cs
    return (self, (match r with | .ok o => .ok o.toList | .error e => .error e) :: rs)

/-- The key of the most recent successful `init` of a history, `cur` being the one installed before it. -/
def lastKey : Option (List U8) → List Call → Option (List U8)
  | cur, [] => cur
  | cur, .init key :: cs => lastKey (if key.length = 16 ∨ key.length = 24 ∨ key.length = 32 then some key else cur) cs
  | cur, _ :: cs => lastKey cur cs

/-- The expected result of a call when `cur` is the key of the most recent successful `init`. -/
def expected (cur : Option (List U8)) : Call → Result
  | .init key => if key.length = 16 ∨ key.length = 24 ∨ key.length = 32 then .ok [] else .error .InvalidKeySize
  | .encrypt b => match cur with | none => .error .NotInitialized | some key => .ok (Spec.Aes.encrypt key b.toList)
  | .decrypt b => match cur with | none => .error .NotInitialized | some key => .ok (Spec.Aes.decrypt key b.toList)

/-- The instance matches the last key. -/
def Matches (self : AES) : Option (List U8) → Prop
  | none => self.round_keys = none
  | some key => Holds self key

theorem run_spec (T : Target) (cs : List Call) (self : AES) (cur : Option (List U8)) (h : Matches self cur) :
    ∃ self' rs, run T self cs = .ok (self', rs) ∧ Matches self' (lastKey cur cs) ∧ rs.length = cs.length ∧
      ∀ i (h1 : i < rs.length) (h2 : i < cs.length), rs[i] = expected (lastKey cur (cs.take i)) cs[i] := by
  induction cs generalizing self cur with
  | nil => exact ⟨self, [], rfl, h, rfl, fun i h1 => by simp at h1⟩
  | cons c cs ih =>
    have step (self1 : AES) (r : Result) (hm : Matches self1 (lastKey cur [c])) (hr : r = expected cur c)
        (he : run T self (c :: cs) = (run T self1 cs >>= fun p => pure (p.1, r :: p.2))) :
        ∃ self' rs, run T self (c :: cs) = .ok (self', rs) ∧ Matches self' (lastKey cur (c :: cs)) ∧
          rs.length = (c :: cs).length ∧ ∀ i (h1 : i < rs.length) (h2 : i < (c :: cs).length),
            rs[i] = expected (lastKey cur ((c :: cs).take i)) (c :: cs)[i] := by
      have hk (l : List Call) : lastKey cur (c :: l) = lastKey (lastKey cur [c]) l := by cases c <;> rfl
      obtain ⟨self', rs, e, hm', hl, hi⟩ := ih self1 _ hm
      refine ⟨self', r :: rs, ?_, ?_, by simp [hl], ?_⟩
      · rw [he, e]; rfl
      · rw [hk]; exact hm'
      · intro i h1 h2
        cases i with
        | zero => exact hr
        | succ i =>
          simp only [List.getElem_cons_succ, List.take_succ_cons]
          rw [hk]
          exact hi i _ _
    cases c with
    | init key =>
      by_cases hk : key.length = 16 ∨ key.length = 24 ∨ key.length = 32
      · obtain ⟨s, e, hs⟩ := init_valid T self key hk
        refine step s (.ok []) ?_ ?_ ?_
        · simp only [lastKey, if_pos hk]; exact hs
        · simp only [expected, if_pos hk]
        · simp only [run, e]; rfl
      · refine step self (.error .InvalidKeySize) ?_ ?_ ?_
        · simp only [lastKey, if_neg hk]; exact h
        · simp only [expected, if_neg hk]
        · simp only [run, init_invalid T self key hk]; rfl
    | encrypt b =>
      cases cur with
      | none =>
        refine step self (.error .NotInitialized) h rfl ?_
        have : self.encrypt b = .ok (.error .NotInitialized) := by
          unfold AES.encrypt
          simp only [show self.round_keys = none from h]
          rfl
        simp only [run, this]; rfl
      | some key =>
        obtain ⟨o, e, ho⟩ := Holds.encrypt h b
        refine step self (.ok o.toList) h (by rw [ho]; rfl) ?_
        simp only [run, e]; rfl
    | decrypt b =>
      cases cur with
      | none =>
        refine step self (.error .NotInitialized) h rfl ?_
        have : self.decrypt b = .ok (.error .NotInitialized) := by
          unfold AES.decrypt
          simp only [show self.round_keys = none from h]
          rfl
        simp only [run, this]; rfl
      | some key =>
        obtain ⟨o, e, ho⟩ := Holds.decrypt h b
        refine step self (.ok o.toList) h (by rw [ho]; rfl) ?_
        simp only [run, e]; rfl

/-- C25, C26: for every history of calls on a new instance nothing panics, and the `i`-th result is the one determined by
the key of the most recent successful `init` before the call: `NotInitialized` when there is none, otherwise the FIPS-197
encryption or decryption under that key. -/
theorem C26_history (T : Target) (cs : List Call) :
    ∃ self' rs, run T AES.new cs = .ok (self', rs) ∧ rs.length = cs.length ∧
      ∀ i (h1 : i < rs.length) (h2 : i < cs.length), rs[i] = expected (lastKey none (cs.take i)) cs[i] := by
  obtain ⟨self', rs, e, _, hl, hi⟩ := run_spec T cs AES.new none rfl
  exact ⟨self', rs, e, hl, hi⟩

/-- C26: after every history the instance answers like a fresh instance initialised once with the key of the most recent
successful `init`. -/
theorem C26_fresh (T : Target) (cs : List Call) (key : List U8) (h : lastKey none cs = some key) :
    ∃ self' rs fresh, run T AES.new cs = .ok (self', rs) ∧ AES.new.init T key = .ok (fresh, .ok ()) ∧
      ∀ b, self'.encrypt b = fresh.encrypt b ∧ self'.decrypt b = fresh.decrypt b := by
  obtain ⟨self', rs, e, hm, _, _⟩ := run_spec T cs AES.new none rfl
  rw [h] at hm
  obtain ⟨fresh, e', hf⟩ := init_valid T AES.new key hm.1
  refine ⟨self', rs, fresh, e, e', fun b => ⟨?_, ?_⟩⟩
  · obtain ⟨o, h1, h2⟩ := Holds.encrypt hm b
    obtain ⟨o', h3, h4⟩ := hf.encrypt b
    rw [h1, h3, Vector.toList_inj.1 (h2.trans h4.symm)]
  · obtain ⟨o, h1, h2⟩ := Holds.decrypt hm b
    obtain ⟨o', h3, h4⟩ := hf.decrypt b
    rw [h1, h3, Vector.toList_inj.1 (h2.trans h4.symm)]

/-- A history with a refused key between two uses, on every target. -/
example (T : Target) (b : Vector U8 16) := C26_fresh T [.encrypt b, .init (List.replicate 24 1), .init [1, 2, 3], .decrypt b] (List.replicate 24 1) (by
  simp [lastKey])

/-- C25: after a history `encrypt` and `decrypt` return `NotInitialized` exactly when no `init` of the history had a key of
one of the three sizes. -/
theorem C25_not_initialized (T : Target) (cs : List Call) (b : Vector U8 16) :
    ∃ self' rs, run T AES.new cs = .ok (self', rs) ∧
      (self'.encrypt b = .ok (.error .NotInitialized) ↔
        ∀ key, Call.init key ∈ cs → key.length ≠ 16 ∧ key.length ≠ 24 ∧ key.length ≠ 32) ∧
      (self'.decrypt b = .ok (.error .NotInitialized) ↔
        ∀ key, Call.init key ∈ cs → key.length ≠ 16 ∧ key.length ≠ 24 ∧ key.length ≠ 32) := by
  have hlast : ∀ (cs : List Call) (cur : Option (List U8)), lastKey cur cs = none ↔ (cur = none ∧
      ∀ key, Call.init key ∈ cs → key.length ≠ 16 ∧ key.length ≠ 24 ∧ key.length ≠ 32) := by
    intro cs
    induction cs with
    | nil => intro cur; simp [lastKey]
    | cons c cs ih =>
      intro cur
      cases c with
      | init key =>
        simp only [lastKey, ih]
        by_cases hk : key.length = 16 ∨ key.length = 24 ∨ key.length = 32
        · simp only [if_pos hk]
          constructor
          · intro h; simp at h
          · intro h
            have := h.2 key (by simp)
            omega
        · simp only [if_neg hk]
          constructor
          · intro h
            refine ⟨h.1, fun k hk' => ?_⟩
            rcases List.mem_cons.1 hk' with e | hk'
            · injection e with e; subst e; omega
            · exact h.2 k hk'
          · intro h
            exact ⟨h.1, fun k hk' => h.2 k (by simp [hk'])⟩
      | encrypt b => simp [lastKey, ih]
      | decrypt b => simp [lastKey, ih]
  obtain ⟨self', rs, e, hm, _, _⟩ := run_spec T cs AES.new none rfl
  refine ⟨self', rs, e, ?_⟩
  have := hlast cs none
  simp only [true_and] at this
  rw [← this]
  cases hk : lastKey none cs with
  | none =>
    rw [hk] at hm
    have hm : self'.round_keys = none := hm
    simp [AES.encrypt, AES.decrypt, hm]
  | some key =>
    rw [hk] at hm
    obtain ⟨o, h1, _⟩ := Holds.encrypt hm b
    obtain ⟨o', h2, _⟩ := Holds.decrypt hm b
    simp [h1, h2]

/-- A history with a refused key between two uses: the installed key stays in use. -/
example : lastKey none [.encrypt (Vector.replicate 16 0), .init (List.replicate 24 1), .init [1, 2, 3],
    .decrypt (Vector.replicate 16 0)] = some (List.replicate 24 1) := by decide +kernel

end Verif.Props.Aes
