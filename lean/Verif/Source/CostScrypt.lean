import Verif.Source.CostPbkdf2
import Verif.Source.Refine.Scrypt

/-! How often the Salsa20 core is called by scrypt. -/

set_option linter.constructorNameAsVariable false
set_option backward.isDefEq.respectTransparency false

namespace Verif.Source
open Verif Verif.Scrypt Verif.Pbkdf2 Verif.Salsa20

variable (T : Target) (F d : Nat)

/-- The Salsa20 core. -/
local notation "SA" => Fn.salsa20_salsa20
/-- The compression function of SHA-256. -/
local notation "PB" => Fn.sha256_SHA256_process_block

/-- The functions from which the Salsa20 core is not reached. -/
def noSalsa : Fn → Bool
  | .salsa20_salsa20 | .scrypt_Scrypt_block_mix | .scrypt_Scrypt_ro_mix | .scrypt_Scrypt_derive => false
  | _ => true

theorem noSalsa_closed : crate.closed noSalsa SA := by
  intro f
  cases f <;> decide +kernel

theorem no_salsa (f : Fn) (hf : noSalsa f = true) (args : List Val) :
    calls SA (callT T crate F d f args).1 = 0 := callT_avoids noSalsa_closed T F d f hf args

theorem no_salsa_itself (args : List Val) : calls SA (callT T crate F d SA args).1 = 0 :=
  callT_avoids' noSalsa_closed T F d _ (by decide +kernel) args

theorem salsa_expr_free {e : Expr} {env : Env} (h : avoids noSalsa e = true) : calls SA (evalT (ctxT T F d) e env).1 = 0 :=
  evalT_zero (S := noSalsa) (K := ctxT T F d) (fun f vs hf => ⟨(noSalsa_closed f hf).1, no_salsa T F d f hf vs⟩) _ h env

theorem salsa_seq_free {ss : List Expr} {e : Expr} {env : Env} (h : avoidsList noSalsa ss = true) (he : avoids noSalsa e = true) :
    calls SA (evalSeqT (ctxT T F d) ss e env) = 0 := by
  have hK := fun f vs (hf : noSalsa f = true) => And.intro (noSalsa_closed f hf).1 (no_salsa T F d f hf vs)
  rw [← evalSeqT_eq]
  exact (Zero.bind (evalListT_zero (K := ctxT T F d) hK ss h) fun _ => evalT_zero (K := ctxT T F d) hK e he) env

theorem salsa_map_free {p : Pat} {body : Expr} {step : Val → E Val} {xs : List Val} {env : Env} (h : avoids noSalsa body = true) :
    calls SA (mapTr (seenOfPat (ctxT T F d) p body) step xs env) = 0 := by
  induction xs generalizing env with
  | nil => rfl
  | cons x xs ih =>
    rw [mapTr, calls_append, calls_after _ _ fun _ _ => ih, seenOfPat, calls_after]
    intro _ env
    exact salsa_expr_free T F d h

theorem map_free {p : Pat} {body : Expr} {step : Val → E Val} {xs : List Val} {env : Env} (h : avoids noBlock body = true) :
    calls PB (mapTr (seenOfPat (ctxT T F d) p body) step xs env) = 0 := by
  induction xs generalizing env with
  | nil => rfl
  | cons x xs ih =>
    rw [mapTr, calls_append, calls_after _ _ fun _ _ => ih, seenOfPat, calls_after]
    intro _ env
    exact expr_free T F d h

attribute [-src] trace_for trace_forMut mutTr
attribute [local src] calls_append calls_cons calls_nil Event.isCall no_salsa_itself trace_for' trace_place_sliceFrom trace_place_sliceTo
  trace_forMut'

theorem calls_block_mix (self : Scrypt) (b r : List Block) (h : self.block_mix T b = .ok r) :
    calls SA (callT T crate F (d + 6) .scrypt_Scrypt_block_mix [encScrypt self, blocks b]).1 = b.length := by
  unfold Scrypt.block_mix at h
  obtain ⟨c1, e1, h⟩ := Counted.bind_ok h
  obtain ⟨c2, e2, h⟩ := Counted.bind_ok h
  obtain ⟨x, e3, h⟩ := Counted.bind_ok h
  obtain ⟨c4, e4, h⟩ := Counted.bind_ok h
  obtain ⟨_, e5, h⟩ := Counted.bind_ok h
  obtain ⟨q, e6, h⟩ := Counted.bind_ok h
  rw [e1] at e4
  cases e4
  show calls SA (evalT (ctxT T F (d + 5)) Gen.fn_scrypt_Scrypt_block_mix.body [(.self, encScrypt self), (.b, blocks b)]).1 = _
  evaluate [Gen.fn_scrypt_Scrypt_block_mix, ctxT_erase, blocks, e1, e2, e3, e5]
  rw [calls_after _ _ fun _ _ => salsa_seq_free T F _ (by decide +kernel) (by decide +kernel)]
  erw [loop_calls (g := SA) (fun x : List U8 => Val.seq (x.map .u8)) (fun s : Block × List Block => [(.y, blocks s.2), (.x, bytes s.1), (.self, encScrypt self),
    (.b, blocks b)]) _ (fun _ => True) (fun n _ => n) b (fun _ => rfl) ?_ ?_ (x, []) trivial q e6]
  · rfl
  · intro p _ s _ k
    evaluate [blocks, SALSA_ROUNDS]
  · intro p _ n s s' _ hs
    refine ⟨?_, trivial⟩
    evaluate [blocks, ctxT_erase]
    rw [calls_after _ _ fun _ _ => salsa_seq_free T F _ (by decide +kernel) (by decide +kernel), no_salsa T F _ .scrypt_block_xor rfl]
    omega

theorem forEach_keeps {α σ : Type} {body : α → σ → M σ} {I : σ → Prop} {xs : List α}
    (h : ∀ x ∈ xs, ∀ s s', body x s = .ok s' → I s → I s') (s s' : σ) (hm : forEach xs s body = .ok s') (hs : I s) : I s' := by
  induction xs generalizing s with
  | nil => cases hm; exact hs
  | cons x xs ih =>
    rw [forEach_cons] at hm
    obtain ⟨s1, e, hm⟩ := Counted.bind_ok hm
    exact ih (fun y hy => h y (by simp [hy])) s1 hm (h x (by simp) s s1 e hs)

theorem calls_ro_mix (self : Scrypt) (b r : List Block) (h : self.ro_mix T b = .ok r) :
    calls SA (callT T crate F (d + 7) .scrypt_Scrypt_ro_mix [encScrypt self, blocks b]).1 = 2 * self.n * b.length := by
  rw [ro_mix_model] at h
  obtain ⟨_, e1, h⟩ := Counted.bind_ok h
  obtain ⟨s, e2, h⟩ := Counted.bind_ok h
  show calls SA (evalT (ctxT T F (d + 6)) Gen.fn_scrypt_Scrypt_ro_mix.body [(.self, encScrypt self), (.b, blocks b)]).1 = _
  evaluate [Gen.fn_scrypt_Scrypt_ro_mix, ctxT_erase, e1]
  have hfill : ∀ i s s', fillStep T self i s = .ok s' → (s.2.length = b.length ∧ ∀ y ∈ s.1, y.length = b.length) →
      s'.2.length = b.length ∧ ∀ y ∈ s'.1, y.length = b.length := by
    intro i s s' h hs
    obtain ⟨t, ht, h⟩ := Counted.bind_ok h
    cases h
    refine ⟨(Counted.block_mix_length T self _ t ht).trans hs.1, ?_⟩
    intro y hy
    rcases List.mem_append.mp hy with hy | hy
    · exact hs.2 y hy
    · rw [List.mem_singleton] at hy
      exact hy ▸ hs.1
  have hstep : ∀ i, ∀ s : List (List Block) × List Block, ∀ k, nextIter (inScope (do
        let _ ← bindPat (Pat.var Id._i) (.usize i)
        eval (ctx T F (d + 6)) (.block
            [.let (.var .t) (.call .scrypt_Scrypt_block_mix [.var .self, .var .x]),
             .mutPrim .push (.var .v) [.var .x],
             .assign (.var .x) (.var .t)]
            .unit)) [(.v, tables s.1), (.x, blocks s.2), (.self, encScrypt self), (.b, blocks b)]) k =
      up (fillStep T self i s) >>= fun s => k [(.v, tables s.1), (.x, blocks s.2), (.self, encScrypt self), (.b, blocks b)] := by
    intro i s k
    evaluate [fillStep, tables]
  erw [loop_calls (g := SA) Val.usize (fun s : List (List Block) × List Block => [(.v, tables s.1), (.x, blocks s.2), (.self, encScrypt self),
    (.b, blocks b)]) (fillStep T self) (fun s => s.2.length = b.length ∧ ∀ y ∈ s.1, y.length = b.length) (fun n _ => n * b.length)
    _ (fun _ => Nat.zero_mul _) (fun i _ s _ k => hstep i s k) ?_ ([], b) ⟨rfl, by simp⟩ s e2]
  · have hI := forEach_keeps (fun i _ s s1 => hfill i s s1) _ _ e2 ⟨rfl, by simp⟩
    erw [forLoop_map, forLoop_model (fun s : List (List Block) × List Block => [(.v, tables s.1), (.x, blocks s.2), (.self, encScrypt self),
      (.b, blocks b)]) (s := ([], b)) (forRange 0 self.n ([], b) (fillStep T self)) rfl (fun i _ s k => hstep i s k)]
    evaluate [ctxT_erase, e2]
    erw [loop_calls (g := SA) Val.usize (fun x : List Block => [(.v, tables s.1), (.x, blocks x), (.self, encScrypt self),
      (.b, blocks b)]) (mixStep T self s.1) (fun x => x.length = b.length) (fun n _ => n * b.length)
      _ (fun _ => Nat.zero_mul _) ?_ ?_ s.2 hI.1 r h]
    · rw [List.length_range', Nat.sub_zero, Nat.mul_assoc, Nat.two_mul,
        calls_after _ _ fun _ _ => salsa_seq_free T F _ (by decide +kernel) (by decide +kernel)]
      rfl
    · intro i _ x _ k
      evaluate [mixStep, tables]
      refine R.bind_congr fun n => ?_
      refine R.bind_congr fun j => ?_
      refine R.bind_congr fun vj => ?_
      evaluate [blocks]
      rw [zipWith_zip, zipWith_zip, mapLoop_pure _ (fun x : Block => .seq (x.map .u8))
        (fun p : Block × Block => block_xor p.1 p.2)]
      · generalize List.map _ (x.zip vj) = t
        evaluate [blocks]
      · intro p _
        evaluate []
    · intro i _ n x x' hx hs
      obtain ⟨i1, e3, hs⟩ := Counted.bind_ok hs
      obtain ⟨j, e4, hs⟩ := Counted.bind_ok hs
      obtain ⟨vj, e5, hs⟩ := Counted.bind_ok hs
      have hvj : vj.length = b.length := by
        refine hI.2 vj ?_
        unfold idx at e5
        split at e5
        · rename_i y hy
          cases e5
          exact List.mem_of_getElem? hy
        · cases e5
      have hz : (List.zipWith (fun x_block v_block => block_xor x_block v_block) x vj).length = b.length := by
        rw [List.length_zipWith, hx, hvj, Nat.min_self]
      refine ⟨?_, (Counted.block_mix_length T self _ x' hs).trans hz⟩
      have c1 := calls_block_mix T F d _ _ _ hs
      evaluate [ctxT_erase, tables, e3, e4, e5]
      evaluate [blocks]
      rw [zipWith_zip] at hs hz c1
      rw [zipWith_zip, mapLoop_pure _ (fun x : Block => .seq (x.map .u8))
        (fun p : Block × Block => block_xor p.1 p.2)]
      · generalize List.map _ (x.zip vj) = t at *
        rw [salsa_map_free (h := by decide +kernel), no_salsa T F _ .scrypt_integerify rfl]
        evaluate [blocks, ctxT_erase, hs]
        refine (congrArg (· + n * b.length) c1).trans ?_
        rw [hz, Nat.succ_mul]
        omega
      · intro p _
        evaluate []
  · intro i _ n s s' hI hs
    refine ⟨?_, hfill _ _ _ hs hI⟩
    obtain ⟨t, ht, hs⟩ := Counted.bind_ok hs
    have c1 := calls_block_mix T F d _ _ _ ht
    evaluate [ctxT_erase, ht, tables]
    rw [c1, hI.1, Nat.succ_mul]
    omega

theorem calls_map {g : Fn} {γ : Type} {seen : Val → Env → Trace} {step : Val → E Val} {env : Env} (enc : γ → Val) (c : Nat) (xs : List γ)
    (hs : ∀ x ∈ xs, calls g (seen (enc x) env) = c) (h : ∀ x ∈ xs, ∃ v, inScope (step (enc x)) env = .ok (.val v, env)) :
    calls g (mapTr seen step (xs.map enc) env) = xs.length * c := by
  rw [mapTr_eq enc (fun x => seen (enc x) env) xs (fun _ _ => rfl) h]
  exact calls_flatMap _ _ _ hs

theorem mapM_all {α β : Type} (f : α → M β) (xs : List α) (ys : List β) (h : xs.mapM f = .ok ys) : ∀ x ∈ xs, ∃ y, f x = .ok y := by
  induction xs generalizing ys with
  | nil => simp
  | cons x xs ih =>
    rw [List.mapM_cons] at h
    obtain ⟨y, hy, h⟩ := Counted.bind_ok h
    obtain ⟨zs, hz, h⟩ := Counted.bind_ok h
    intro w hw
    rcases List.mem_cons.mp hw with rfl | hw
    · exact ⟨y, hy⟩
    · exact ih zs hz w hw

/-- The sizes in `derive`. -/
theorem derive_shape (self : Scrypt) (P S : List U8) (n : Nat) (hr : ¬self.r < 1) (hq : ¬self.p < 1)
    (hwrap : T.checks = true ∨ 128 * self.r * self.p < 2 ^ T.bits) {a b size cs : Nat} {raw : List U8} {lanes : List (List U8)}
    {bs : List (List Block)}
    (ha : T.mul self.p 2 = .ok a) (hb : T.mul a Scrypt.BLOCK_SIZE = .ok b) (hsize : T.mul b self.r = .ok size)
    (hraw : pbkdf2_sha256 T P S n (List.replicate size 0#8) = .ok raw) (hm : T.mul (2 * 64) self.r = .ok cs)
    (hlanes : chunksExact raw cs = .ok lanes) (hbs : lanes.mapM (fun chunk => chunksExact chunk Scrypt.BLOCK_SIZE) = .ok bs) :
    size = 128 * self.r * self.p ∧ bs.length = self.p ∧ ∀ b ∈ bs, Shape self.r b := by
  have g1 : self.p * 128 ≤ 128 * self.r * self.p := by
    rw [Nat.mul_comm self.p 128, Nat.mul_assoc]
    exact Nat.mul_le_mul_left _ (Nat.le_mul_of_pos_left _ (by omega))
  have g2 : 128 * self.r ≤ 128 * self.r * self.p := Nat.le_mul_of_pos_right _ (by omega)
  have ha := Counted.mul_exact T _ _ _ (hwrap.imp id fun h => by omega) ha
  subst ha
  have hb := Counted.mul_exact T _ _ _ (hwrap.imp id fun h => by show self.p * 2 * 64 < _; omega) hb
  subst hb
  have hsz : self.p * 2 * Scrypt.BLOCK_SIZE * self.r = 128 * self.r * self.p := by
    show self.p * 2 * 64 * self.r = _
    rw [Nat.mul_assoc self.p, Nat.mul_comm self.p, Nat.mul_right_comm]
  have hsize := Counted.mul_exact T _ _ _ (hwrap.imp id fun h => by rw [hsz]; exact h) hsize
  rw [hsz] at hsize
  have hcs : cs = 128 * self.r := Counted.mul_exact T _ _ _ (hwrap.imp id fun h => by omega) hm
  have hrawl := Counted.pbkdf2_length T _ _ _ _ raw hraw
  rw [List.length_replicate, hsize] at hrawl
  rw [hcs] at hlanes
  obtain ⟨l1, l2⟩ := Counted.chunksExact_spec _ _ _ hlanes
  rw [hrawl, Nat.mul_div_cancel_left _ (by omega)] at l1
  obtain ⟨m1, m2⟩ := Counted.mapM_mem _ _ _ hbs
  refine ⟨hsize, m1.trans l1, fun b hb => ?_⟩
  obtain ⟨lane, hl, e⟩ := m2 b hb
  have h1 := Counted.chunksExact_spec _ _ _ e
  rw [l2 lane hl] at h1
  refine ⟨h1.1.trans ?_, h1.2⟩
  show 128 * self.r / 64 = _
  omega

/-- The mixed blocks are as long as the blocks before. -/
theorem mixed_length (self : Scrypt) (hr : ¬self.r < 1) (hn : ¬self.n < 1) (hq : ¬self.p < 1) {bs mixed : List (List Block)}
    (hle : 128 * self.r * self.p ≤ T.isizeMax) (hl : bs.length = self.p) (hb : ∀ b ∈ bs, Shape self.r b)
    (h : bs.mapM (fun elem => self.ro_mix T elem) = .ok mixed) : mixed.flatten.flatten.length = 128 * self.r * self.p := by
  obtain ⟨m1, m2⟩ := Counted.mapM_mem _ _ _ h
  have g2 : 128 * self.r ≤ 128 * self.r * self.p := Nat.le_mul_of_pos_right _ (by omega)
  have hs : ∀ b ∈ mixed, Shape self.r b := by
    intro b' hb'
    obtain ⟨b, hmem, e⟩ := m2 b' hb'
    have hcapn : self.n * T.vecSize ≤ T.isizeMax := by
      unfold Scrypt.ro_mix at e
      obtain ⟨_, hres, _⟩ := Counted.bind_ok e
      unfold Target.reserve at hres
      split at hres
      · assumption
      · cases hres
    obtain ⟨b'', e', hs, _⟩ := ro_mix_ok T self b (by omega) (by omega) (hb b hmem)
      (by
        have : T.vecSize ≤ 24 := by rw [Target.vecSize]; rcases T.bits_cases with h | h <;> rw [h] <;> decide
        have := Nat.mul_le_mul_left (2 * self.r) this
        omega) hcapn
    cases e.symm.trans e'
    exact hs
  have h1 : ∀ x ∈ mixed.flatten, x.length = 64 := by
    intro x hx
    obtain ⟨b, hb, hx⟩ := List.mem_flatten.mp hx
    exact (hs b hb).2 x hx
  have h2 : mixed.flatten.length = mixed.length * (2 * self.r) := by
    clear h1 m2 h m1
    induction mixed with
    | nil => simp
    | cons b l ih =>
      rw [List.flatten_cons, List.length_append, ih fun x hx => hs x (by simp [hx]), (hs b (by simp)).1, List.length_cons,
        Nat.add_mul l.length, Nat.one_mul, Nat.add_comm]
  rw [flatten_const_length _ 64 h1, h2, m1, hl, Nat.mul_comm self.p, Nat.mul_right_comm, Nat.mul_right_comm 2]

theorem calls_derive (self : Scrypt) (passphrase salt out : List U8)
    (hwrap : T.checks = true ∨ 128 * self.r * self.p < 2 ^ T.bits) (o : List U8) (e : Except ScryptError Unit)
    (h : self.derive T passphrase salt out = .ok (o, e)) :
    calls SA (callT T crate F (d + 8) .scrypt_Scrypt_derive [encScrypt self, bytes passphrase, bytes salt, bytes out]).1 =
      match e with
      | .ok () => 4 * self.n * self.r * self.p
      | .error _ => 0 := by
  show calls SA (evalT (ctxT T F (d + 7)) Gen.fn_scrypt_Scrypt_derive.body [(.self, encScrypt self), (.passphrase, bytes passphrase),
    (.salt, bytes salt), (.out, bytes out)]).1 = _
  unfold Scrypt.derive at h
  by_cases hr : self.r < 1
  · rw [if_pos hr] at h
    cases h
    evaluate [Gen.fn_scrypt_Scrypt_derive, hr, ctxT_erase]
  rw [if_neg hr] at h
  by_cases hn : self.n < 1
  · rw [if_pos hn] at h
    cases h
    evaluate [Gen.fn_scrypt_Scrypt_derive, hr, hn, ctxT_erase]
  rw [if_neg hn, T.sub_ok (by omega)] at h
  obtain ⟨_, e0, h⟩ := Counted.bind_ok h
  cases e0
  by_cases hp : (self.n - 1) &&& self.n ≠ 0
  · rw [if_pos hp] at h
    cases h
    evaluate [Gen.fn_scrypt_Scrypt_derive, hr, hn, hp, Small.sub, ctxT_erase]
  rw [if_neg hp] at h
  have hp := Decidable.not_not.mp hp
  by_cases hq : self.p < 1
  · rw [if_pos hq] at h
    cases h
    evaluate [Gen.fn_scrypt_Scrypt_derive, hr, hn, hp, hq, Small.sub, ctxT_erase]
  rw [if_neg hq] at h
  obtain ⟨a, ha, h⟩ := Counted.bind_ok h
  obtain ⟨b, hb, h⟩ := Counted.bind_ok h
  obtain ⟨size, hsize, h⟩ := Counted.bind_ok h
  obtain ⟨_, hres, h⟩ := Counted.bind_ok h
  obtain ⟨raw, hraw, h⟩ := Counted.bind_ok h
  obtain ⟨cs, hcs, h⟩ := Counted.bind_ok h
  obtain ⟨lanes, hlanes, h⟩ := Counted.bind_ok h
  obtain ⟨bs, hbs, h⟩ := Counted.bind_ok h
  obtain ⟨mixed, hmixed, h⟩ := Counted.bind_ok h
  obtain ⟨out', hout', h⟩ := Counted.bind_ok h
  cases h
  have hle : size ≤ T.isizeMax := by
    unfold Target.reserve at hres
    split at hres
    · rename_i hh; simpa using hh
    · cases hres
  have h1 := src_pbkdf2 T F d passphrase salt (Vector.replicate size 0#8).toList 1 (by simpa using hle)
  simp only [bytes, Vector.toList_replicate] at h1
  have hm : T.mul (2 * 64) self.r = .ok cs := hcs
  obtain ⟨_, k1, k2⟩ := derive_shape T self passphrase salt _ hr hq hwrap ha hb hsize hraw hm hlanes hbs
  have k2 := fun b hb => (k2 b hb).1
  evaluate [Gen.fn_scrypt_Scrypt_derive, hr, hn, hp, hq, Small.sub, ctxT_erase, ha, show T.mul a 64 = _ from hb, hsize, hres, Small.mul, hm]
  simp only [Vector.toList_replicate]
  rw [show pbkdf2_sha256 T passphrase salt 1 (List.replicate size 0#8) = .ok raw from hraw] at h1
  generalize List.replicate size 0#8 = raw0 at *
  evaluate [h1, Small.mul, hm, hlanes, ctxT_erase]
  rw [no_salsa T F _ .pbkdf2_pbkdf2_sha256 rfl, salsa_map_free (h := by decide +kernel), List.map_map]
  erw [mapLoop_model (fun c : List U8 => .seq (c.map .u8)) blocks (fun chunk => chunksExact chunk 64)]
  · rw [show lanes.mapM (fun chunk => chunksExact chunk 64) = .ok bs from hbs]
    evaluate [ctxT_erase]
    have hall : ∀ x ∈ bs, ∃ y, self.ro_mix T x = .ok y := mapM_all _ _ _ hmixed
    rw [calls_after _ _ fun _ _ => by evaluate [],
      calls_after _ _ fun _ _ => salsa_seq_free T F _ (by decide +kernel) (by decide +kernel),
      calls_map blocks (2 * self.n * (2 * self.r))]
    · rw [k1, Nat.add_zero, Nat.mul_comm]
      congr 1
      rw [← Nat.mul_assoc, Nat.mul_right_comm 2 self.n 2]
    · intro x hx
      obtain ⟨y, hy⟩ := hall x hx
      have c1 := calls_ro_mix T F d _ _ _ hy
      rw [k2 x hx] at c1
      evaluate [ctxT_erase, c1]
    · intro x hx
      obtain ⟨y, hy⟩ := hall x hx
      evaluate [hy]
  · intro c _
    evaluate [blocks]
    refine R.bind_congr fun cs => ?_
    rw [List.map_map]
    erw [mapLoop_pure (fun c : List U8 => .seq (c.map .u8)) (fun c : List U8 => .seq (c.map .u8)) (fun c => c)]
    · evaluate [List.map_id']
    · intro c _
      evaluate []

theorem calls_derive_blocks (self : Scrypt) (passphrase salt out : List U8) (ho : out.length ≤ T.isizeMax)
    (hwrap : T.checks = true ∨ 128 * self.r * self.p < 2 ^ T.bits) (o : List U8) (e : Except ScryptError Unit)
    (h : self.derive T passphrase salt out = .ok (o, e)) :
    calls PB (callT T crate F (d + 8) .scrypt_Scrypt_derive [encScrypt self, bytes passphrase, bytes salt, bytes out]).1 =
      match e with
      | .ok () => (128 * self.r * self.p + 31) / 32 * Counted.macCost passphrase (salt.length + 4) +
          (out.length + 31) / 32 * Counted.macCost passphrase (128 * self.r * self.p + 4)
      | .error _ => 0 := by
  show calls PB (evalT (ctxT T F (d + 7)) Gen.fn_scrypt_Scrypt_derive.body [(.self, encScrypt self), (.passphrase, bytes passphrase),
    (.salt, bytes salt), (.out, bytes out)]).1 = _
  unfold Scrypt.derive at h
  by_cases hr : self.r < 1
  · rw [if_pos hr] at h
    cases h
    evaluate [Gen.fn_scrypt_Scrypt_derive, hr, ctxT_erase]
  rw [if_neg hr] at h
  by_cases hn : self.n < 1
  · rw [if_pos hn] at h
    cases h
    evaluate [Gen.fn_scrypt_Scrypt_derive, hr, hn, ctxT_erase]
  rw [if_neg hn, T.sub_ok (by omega)] at h
  obtain ⟨_, e0, h⟩ := Counted.bind_ok h
  cases e0
  by_cases hp : (self.n - 1) &&& self.n ≠ 0
  · rw [if_pos hp] at h
    cases h
    evaluate [Gen.fn_scrypt_Scrypt_derive, hr, hn, hp, Small.sub, ctxT_erase]
  rw [if_neg hp] at h
  have hp := Decidable.not_not.mp hp
  by_cases hq : self.p < 1
  · rw [if_pos hq] at h
    cases h
    evaluate [Gen.fn_scrypt_Scrypt_derive, hr, hn, hp, hq, Small.sub, ctxT_erase]
  rw [if_neg hq] at h
  obtain ⟨a, ha, h⟩ := Counted.bind_ok h
  obtain ⟨b, hb, h⟩ := Counted.bind_ok h
  obtain ⟨size, hsize, h⟩ := Counted.bind_ok h
  obtain ⟨_, hres, h⟩ := Counted.bind_ok h
  obtain ⟨raw, hraw, h⟩ := Counted.bind_ok h
  obtain ⟨cs, hcs, h⟩ := Counted.bind_ok h
  obtain ⟨lanes, hlanes, h⟩ := Counted.bind_ok h
  obtain ⟨bs, hbs, h⟩ := Counted.bind_ok h
  obtain ⟨mixed, hmixed, h⟩ := Counted.bind_ok h
  obtain ⟨out', hout', h⟩ := Counted.bind_ok h
  cases h
  have hle : size ≤ T.isizeMax := by
    unfold Target.reserve at hres
    split at hres
    · rename_i hh; simpa using hh
    · cases hres
  have h1 := src_pbkdf2 T F d passphrase salt (Vector.replicate size 0#8).toList 1 (by simpa using hle)
  simp only [bytes, Vector.toList_replicate] at h1
  have hm : T.mul (2 * 64) self.r = .ok cs := hcs
  obtain ⟨hlen, k1, k2⟩ := derive_shape T self passphrase salt _ hr hq hwrap ha hb hsize hraw hm hlanes hbs
  have w1 := calls_pbkdf2 T F d passphrase salt (List.replicate size 0#8) 1 (by simpa using hle) raw hraw
  have w2 := calls_pbkdf2 T F d passphrase mixed.flatten.flatten out 1 ho o hout'
  rw [mixed_length T self hr hn hq (hlen ▸ hle) k1 k2 hmixed] at w2
  have w1 := w1.trans (by rw [List.length_replicate, hlen])
  evaluate [Gen.fn_scrypt_Scrypt_derive, hr, hn, hp, hq, Small.sub, ctxT_erase, ha, show T.mul a 64 = _ from hb, hsize, hres, Small.mul, hm]
  simp only [Vector.toList_replicate]
  rw [show pbkdf2_sha256 T passphrase salt 1 (List.replicate size 0#8) = .ok raw from hraw] at h1
  generalize List.replicate size 0#8 = raw0 at *
  evaluate [h1, Small.mul, hm, hlanes, ctxT_erase]
  rw [map_free (h := by decide +kernel), List.map_map]
  erw [mapLoop_model (fun c : List U8 => .seq (c.map .u8)) blocks (fun chunk => chunksExact chunk 64)]
  · rw [show lanes.mapM (fun chunk => chunksExact chunk 64) = .ok bs from hbs]
    evaluate [ctxT_erase]
    rw [map_free (h := by decide +kernel), mapLoop_model blocks blocks (fun elem => self.ro_mix T elem)]
    · rw [show bs.mapM (fun elem => self.ro_mix T elem) = .ok mixed from hmixed]
      have h3 := fun (b : List (List Block)) => flattenVals_map (fun x : Block => .seq (x.map .u8)) b
      have h4 := fun (b : List Block) => flattenVals_map Val.u8 b
      have h5 : ∀ b : List (List Block), b.map blocks = b.map fun x => .seq (x.map fun x => .seq (x.map .u8)) := fun _ => rfl
      evaluate [h3, h4, h5, ctxT_erase]
      rw [calls_after _ _ fun _ _ => seq_free T F _ (by decide +kernel) (by decide +kernel)]
      simp only [bytes] at w1 w2
      rw [w1, w2]
      simp
    · intro x _
      evaluate []
  · intro c _
    evaluate [blocks]
    refine R.bind_congr fun cs => ?_
    rw [List.map_map]
    erw [mapLoop_pure (fun c : List U8 => .seq (c.map .u8)) (fun c : List U8 => .seq (c.map .u8)) (fun c => c)]
    · evaluate [List.map_id']
    · intro c _
      evaluate []

end Verif.Source
