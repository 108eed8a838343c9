import Verif.Props.SideChannel
import Verif.Source.Refine.Scrypt
import Verif.Proof.Scrypt

/-!
C76: what an observer of the execution learns from scrypt.

The observer is the one of `Verif/Source/Leak.lean`.
-/

set_option linter.constructorNameAsVariable false
set_option backward.isDefEq.respectTransparency false

namespace Verif.Props.SideChannelScrypt
open Verif Verif.Scrypt Verif.Source Verif.Props.ConstantTime Verif.Props.SideChannel

theorem low_blocks {r : Nat} {a b : List Block} (ha : Shape r a) (hb : Shape r b) : Low (blocks a) (blocks b) := by
  have hl : a.length = b.length := ha.1.trans hb.1.symm
  replace ha := ha.2
  replace hb := hb.2
  apply Low.seq
  induction a generalizing b with
  | nil =>
    obtain rfl := List.length_eq_zero_iff.1 hl.symm
    exact .nil
  | cons x xs ih =>
    rcases b with _ | ⟨y, ys⟩
    · cases hl
    · exact .cons (low_bytes ((ha x (by simp)).trans (hb y (by simp)).symm))
        (ih (by simpa using hl) (fun z hz => ha z (by simp [hz])) (fun z hz => hb z (by simp [hz])))

theorem low_scrypt (s : Scrypt) : Low (encScrypt s) (encScrypt s) := rfl

variable (T : Target) (F d : Nat)

/-- Blocks of the right shape. -/
def zeros (r : Nat) : List Block := List.replicate (2 * r) (List.replicate 64 0)

theorem zeros_shape (r : Nat) : Shape r (zeros r) := by
  constructor
  · simp [zeros]
  · intro x hx
    rw [List.eq_of_mem_replicate hx]
    simp

/-- What is seen of `block_mix`, `integerify` and `block_xor` on blocks of the right shape. -/
def mixSeen (s : Scrypt) : Trace := (callT T crate F (d + 6) .scrypt_Scrypt_block_mix [encScrypt s, blocks (zeros s.r)]).1
def intSeen (s : Scrypt) : Trace := (callT T crate F (d + 6) .scrypt_integerify [blocks (zeros s.r)]).1
def xorSeen : Trace :=
  (callT T crate F (d + 6) .scrypt_block_xor [bytes (List.replicate 64 0), bytes (List.replicate 64 0)]).1

/-- The first loop of `ro_mix`. -/
def fillTrace (s : Scrypt) (i : Nat) : Trace := .call .scrypt_Scrypt_block_mix :: mixSeen T F d s ++ [.sizes [i, 2 * s.r]]

/-- The second loop of `ro_mix`, when `integerify` gives `w`. -/
def mixTrace (s : Scrypt) (w : Nat) : Trace :=
  .call .scrypt_integerify :: intSeen T F d s ++ [.operand (.usize w), .operand (.usize s.n), .index (w % s.n),
    .sizes [2 * s.r, 2 * s.r], .count (2 * s.r)] ++
    (List.range (2 * s.r)).flatMap (fun _ => .call .scrypt_block_xor :: xorSeen T F d) ++
    .call .scrypt_Scrypt_block_mix :: mixSeen T F d s

/-- The word of `T.bits` bits that `ro_mix` reduces modulo `n` in step `k`. -/
def word (bits r n : Nat) (B : List U8) (k : Nat) : Nat := Spec.Scrypt.integerify r (Spec.Scrypt.X r n B k) % 2 ^ bits

theorem mix_seen (s : Scrypt) (b : List Block) (hb : Shape s.r b) :
    (callT T crate F (d + 6) .scrypt_Scrypt_block_mix [encScrypt s, blocks b]).1 = mixSeen T F d s :=
  same_trace T F (d + 6) .scrypt_Scrypt_block_mix (by decide +kernel) (.cons (low_scrypt s) (.cons (low_blocks hb (zeros_shape s.r)) .nil))

theorem int_seen (s : Scrypt) (b : List Block) (hb : Shape s.r b) :
    (callT T crate F (d + 6) .scrypt_integerify [blocks b]).1 = intSeen T F d s :=
  same_trace T F (d + 6) .scrypt_integerify (by decide +kernel) (.cons (low_blocks hb (zeros_shape s.r)) .nil)

theorem xor_seen (a b : Block) (ha : a.length = 64) (hb : b.length = 64) :
    (callT T crate F (d + 6) .scrypt_block_xor [bytes a, bytes b]).1 = xorSeen T F d :=
  same_trace T F (d + 6) .scrypt_block_xor (by decide +kernel) (.cons (low_bytes (by simp [ha])) (.cons (low_bytes (by simp [hb])) .nil))

/-- The variables of `ro_mix`. -/
def roEnv (s : Scrypt) (b : List Block) (v : List (List Block)) (x : List Block) : Env :=
  [(.v, tables v), (.x, blocks x), (.self, encScrypt s), (.b, blocks b)]

theorem fill_loop {seen : Val → Env → Trace} {step : Val → E Val} (s : Scrypt) (b : List Block) (hr : 1 ≤ s.r) (hb : Shape s.r b)
    (hcap : 2 * s.r * T.vecSize ≤ T.isizeMax)
    (h : ∀ i, i < s.n → ∀ (v : List (List Block)) (x : List Block), v.length = i → Shape s.r x →
      seen (.usize i) (roEnv s b v x) = fillTrace T F d s i ∧
      ∀ k, nextIter (inScope (step (.usize i)) (roEnv s b v x)) k =
        up (s.block_mix T x) >>= fun t => k (roEnv s b (v ++ [x]) t)) :
    ∃ (v : List (List Block)) (x : List Block), v.length = s.n ∧
      (∀ j (hj : j < v.length), Shape s.r v[j] ∧ v[j].flatten = Spec.Scrypt.V s.r b.flatten j) ∧
      Shape s.r x ∧ x.flatten = Spec.Scrypt.V s.r b.flatten s.n ∧
      forLoop step ((List.range' 0 s.n).map .usize) (roEnv s b [] b) = .ok (.val .unit, roEnv s b v x) ∧
      loopTr seen step ((List.range' 0 s.n).map .usize) (roEnv s b [] b) = (List.range s.n).flatMap (fillTrace T F d s) := by
  obtain ⟨env', ⟨v, x, h1, h2, h3, h4, rfl⟩, h5, h6⟩ := loop_inv (seen := seen) (step := step) ((List.range' 0 s.n).map .usize)
    (fun i env => ∃ (v : List (List Block)) (x : List Block), v.length = i ∧
      (∀ j (hj : j < v.length), Shape s.r v[j] ∧ v[j].flatten = Spec.Scrypt.V s.r b.flatten j) ∧
      Shape s.r x ∧ x.flatten = Spec.Scrypt.V s.r b.flatten i ∧ env = roEnv s b v x) (fillTrace T F d s) (by
      rintro i hi env ⟨v, x, h1, h2, h3, h4, rfl⟩
      have hi : i < s.n := by simpa using hi
      obtain ⟨h5, h6⟩ := h i hi v x h1 h3
      obtain ⟨t, e, ht, hf⟩ := block_mix_ok T s x hr h3 hcap
      have hx : ((List.range' 0 s.n).map Val.usize)[i]'(by simpa using hi) = .usize i := by simp
      rw [hx]
      refine ⟨h5, _, ⟨v ++ [x], t, by simp [h1], ?_, ht, by rw [hf, h4]; rfl, rfl⟩, fun k => by rw [h6, e]; rfl⟩
      intro j hj
      by_cases hj' : j < v.length
      · rw [List.getElem_append_left hj']; exact h2 j hj'
      · have : j = v.length := by simp at hj; omega
        subst this
        rw [List.getElem_append_right (Nat.le_refl _)]
        simp only [Nat.sub_self, List.getElem_cons_zero]
        exact ⟨h3, h1 ▸ h4⟩)
    (roEnv s b [] b) ⟨[], b, rfl, fun j hj => absurd hj (Nat.not_lt_zero _), hb, rfl, rfl⟩
  simp only [List.length_map, List.length_range'] at h1 h4 h6
  exact ⟨v, x, h1, h2, h3, h4, h5, h6⟩

theorem after_quiet {α : Type} (x : Verif.Source.R (Ctl α × Env)) (k : α → Env → Trace) (h : ∀ a env, k a env = []) : after x k = [] := by
  rw [show k = fun _ _ => [] from funext fun a => funext fun env => h a env, after_nil]

theorem fill_then {seen : Val → Env → Trace} {step : Val → E Val} (s : Scrypt) (b : List Block) (hr : 1 ≤ s.r) (hb : Shape s.r b)
    (hcap : 2 * s.r * T.vecSize ≤ T.isizeMax) (rest : Val → Env → Trace) (r : Trace)
    (h : ∀ i, i < s.n → ∀ (v : List (List Block)) (x : List Block), v.length = i → Shape s.r x →
      seen (.usize i) (roEnv s b v x) = fillTrace T F d s i ∧
      ∀ k, nextIter (inScope (step (.usize i)) (roEnv s b v x)) k =
        up (s.block_mix T x) >>= fun t => k (roEnv s b (v ++ [x]) t))
    (h' : ∀ (v : List (List Block)) (x : List Block), v.length = s.n →
      (∀ j (hj : j < v.length), Shape s.r v[j] ∧ v[j].flatten = Spec.Scrypt.V s.r b.flatten j) →
      Shape s.r x → x.flatten = Spec.Scrypt.V s.r b.flatten s.n → rest .unit (roEnv s b v x) = r) :
    loopTr seen step ((List.range' 0 s.n).map .usize) (roEnv s b [] b) ++
      after (forLoop step ((List.range' 0 s.n).map .usize) (roEnv s b [] b)) rest =
        (List.range s.n).flatMap (fillTrace T F d s) ++ r := by
  obtain ⟨v, x, hvl, hv, hx, hxV, e1, e2⟩ := fill_loop T F d s b hr hb hcap h
  rw [e1, e2, after_val, h' v x hvl hv hx hxV]

theorem mix_loop {seen : Val → Env → Trace} {step : Val → E Val} (s : Scrypt) (b : List Block) (hr : 1 ≤ s.r) (e : Nat)
    (he : e ≤ T.bits) (hn : s.n = 2 ^ e) (hcap : 2 * s.r * T.vecSize ≤ T.isizeMax) (v : List (List Block)) (x : List Block)
    (hvl : v.length = s.n) (hv : ∀ j (hj : j < v.length), Shape s.r v[j] ∧ v[j].flatten = Spec.Scrypt.V s.r b.flatten j)
    (hx : Shape s.r x) (hxV : x.flatten = Spec.Scrypt.V s.r b.flatten s.n)
    (h : ∀ i, i < s.n → ∀ (x : List Block) (w : Nat) (vj : List Block) (n : U64), Shape s.r x → Shape s.r vj →
      integerify T x = .ok n → n.toNat % 2 ^ T.bits = w → idx v (w % s.n) = .ok vj →
      seen (.usize i) (roEnv s b v x) = mixTrace T F d s w ∧
      ∀ k, nextIter (inScope (step (.usize i)) (roEnv s b v x)) k =
        up (s.block_mix T (List.zipWith (fun x_block v_block => block_xor x_block v_block) x vj)) >>= fun t => k (roEnv s b v t)) :
    loopTr seen step ((List.range' 0 s.n).map .usize) (roEnv s b v x) =
      (List.range s.n).flatMap fun k => mixTrace T F d s (word T.bits s.r s.n b.flatten k) := by
  obtain ⟨env', -, -, h6⟩ := loop_inv (seen := seen) (step := step) ((List.range' 0 s.n).map .usize)
    (fun i env => ∃ x : List Block, Shape s.r x ∧ x.flatten = Spec.Scrypt.X s.r s.n b.flatten i ∧ env = roEnv s b v x)
    (fun k => mixTrace T F d s (word T.bits s.r s.n b.flatten k)) (by
      rintro i hi env ⟨x, hx, hxX, rfl⟩
      have hi : i < s.n := by simpa using hi
      obtain ⟨val, hv1, hv2⟩ := integerify_ok T s.r hr x hx
      have hw : val.toNat % 2 ^ T.bits = word T.bits s.r s.n b.flatten i := by
        rw [hv2, word, ← hxX, Spec.Scrypt.integerify,
          ← littleEndian_mod (Spec.Scrypt.block x.flatten (2 * s.r - 1)) T.bits T.bits (Nat.le_refl _)
            (by rcases T.bits_cases with h | h <;> omega), Nat.mod_mod]
      have hj : word T.bits s.r s.n b.flatten i % s.n < v.length := by rw [hvl]; exact Nat.mod_lt _ (by omega)
      have hvj := hv _ hj
      have hidx : word T.bits s.r s.n b.flatten i % s.n = Spec.Scrypt.integerify s.r x.flatten % s.n := by
        rw [word, ← hxX, hn, Nat.mod_mod_of_dvd _ (Nat.pow_dvd_pow 2 he)]
      obtain ⟨h1, h2⟩ := h i hi x _ _ val hx hvj.1 hv1 hw (idx_ok _ _ hj)
      obtain ⟨t, e, ht, hf⟩ := block_mix_ok T s _ hr (zip_shape s.r _ _ hx hvj.1) hcap
      have hx' : ((List.range' 0 s.n).map Val.usize)[i]'(by simpa using hi) = .usize i := by simp
      rw [hx']
      refine ⟨h1, _, ⟨t, ht, ?_, rfl⟩, fun k => by rw [h2, e]; rfl⟩
      rw [hf, zip_flatten _ _ hx.2 hvj.1.2 (by rw [hx.1, hvj.1.1]), hvj.2, Spec.Scrypt.X, ← hxX, hidx])
    (roEnv s b v x) ⟨x, hx, hxV, rfl⟩
  simpa using h6

theorem trace_ro_mix (s : Scrypt) (b : List Block) (hr : 1 ≤ s.r) (e : Nat) (he : e ≤ T.bits) (hn : s.n = 2 ^ e) (hb : Shape s.r b)
    (hcap : 2 * s.r * T.vecSize ≤ T.isizeMax) (hcapn : s.n * T.vecSize ≤ T.isizeMax) :
    (callT T crate F (d + 7) .scrypt_Scrypt_ro_mix [encScrypt s, blocks b]).1 =
      [.sizes [s.n], .count s.n] ++ (List.range s.n).flatMap (fillTrace T F d s) ++
        .count s.n :: (List.range s.n).flatMap fun k => mixTrace T F d s (word T.bits s.r s.n b.flatten k) := by
  show (evalT (ctxT T F (d + 6)) Gen.fn_scrypt_Scrypt_ro_mix.body [(.self, encScrypt s), (.b, blocks b)]).1 = _
  evaluate [Gen.fn_scrypt_Scrypt_ro_mix, ctxT_erase, T.reserve_ok hcapn]
  rw [show [(Id.v, Val.seq []), (.x, blocks b), (.self, encScrypt s), (.b, blocks b)] = roEnv s b [] b from rfl]
  refine fill_then T F d s b hr hb hcap _ _ ?_ ?_
  · intro i hi v x hv hx
    have hm := mix_seen T F d s x hx
    obtain ⟨t, ht, -, -⟩ := block_mix_ok T s x hr hx hcap
    constructor
    · evaluate [ctxT_erase, fillTrace, roEnv, hm, ht, tables, hv]
      simp [blocks, hx.1]
    · intro k
      evaluate [roEnv, tables]
  · intro v x hvl hv hx hxV
    evaluate [roEnv, ctxT_erase]
    rw [show [(Id.v, tables v), (.x, blocks x), (.self, encScrypt s), (.b, blocks b)] = roEnv s b v x from rfl]
    rw [after_quiet _ _ fun _ env => by evaluate [], List.append_nil]
    refine mix_loop T F d s b hr e he hn hcap v x hvl hv hx hxV ?_
    intro i hi x w vj n hx hvj hint hw hidx
    have hi' := int_seen T F d s x hx
    have hrem : T.rem w s.n = .ok (w % s.n) := T.rem_ok (by omega)
    constructor
    · have hm := mix_seen T F d s _ (zip_shape s.r _ _ hx hvj)
      have hl : (x.zip vj).length = 2 * s.r := by rw [List.length_zip, hx.1, hvj.1, Nat.min_self]
      have hz : List.zipWith (fun x_block v_block => block_xor x_block v_block) x vj = (x.zip vj).map fun p => block_xor p.1 p.2 := by
        rw [List.zip, List.map_zipWith]
      have hok : ∃ t, s.block_mix T (List.zipWith (fun x_block v_block => block_xor x_block v_block) x vj) = .ok t :=
        (block_mix_ok T s _ hr (zip_shape s.r _ _ hx hvj) hcap).imp fun _ h => h.1
      rw [hz] at hm hok
      clear hz
      evaluate [ctxT_erase, mixTrace, roEnv, hi', hint, hw, hrem, hidx, tables]
      evaluate [blocks, hx.1, hvj.1, ctxT_erase, Nat.min_self]
      rw [zipWith_zip, mapLoop_pure _ (fun x : Block => .seq (x.map .u8)) (fun p : Block × Block => block_xor p.1 p.2),
        mapTr_eq (γ := Block × Block) _ (fun _ => .call .scrypt_block_xor :: xorSeen T F d)]
      · rw [show ((x.zip vj).flatMap fun _ => Event.call .scrypt_block_xor :: xorSeen T F d) =
          (List.range (2 * s.r)).flatMap fun _ => Event.call .scrypt_block_xor :: xorSeen T F d by
            rw [← hl]
            generalize x.zip vj = l
            rw [List.flatMap_def, List.flatMap_def, List.map_const', List.map_const', List.length_range]]
        generalize List.map (fun p : Block × Block => block_xor p.1 p.2) (x.zip vj) = t at *
        obtain ⟨t', ht⟩ := hok
        unfold blocks at hm
        evaluate [hm, ctxT_erase, ht]
      · rintro ⟨a, c⟩ hp
        have hp := List.of_mem_zip hp
        have := xor_seen T F d a c (hx.2 a hp.1) (hvj.2 c hp.2)
        unfold bytes at this
        evaluate [ctxT_erase, this]
      · rintro ⟨a, c⟩ _
        exact ⟨.seq ((block_xor a c).map .u8), by evaluate [ctxT_erase]⟩
      · intro p _
        evaluate [ctxT_erase]
    · intro k
      evaluate [roEnv, hint, hw, tables, hrem, hidx]
      evaluate [blocks]
      rw [zipWith_zip, zipWith_zip, mapLoop_pure _ (fun x : Block => .seq (x.map .u8))
        (fun p : Block × Block => block_xor p.1 p.2)]
      · generalize List.map _ (x.zip vj) = t
        evaluate [blocks]
      · intro p _
        evaluate []

def kdfSeen (p s o : Nat) : Trace :=
  (callT T crate F (d + 7) .pbkdf2_pbkdf2_sha256 [bytes (List.replicate p 0), bytes (List.replicate s 0), .usize 1, bytes (List.replicate o 0)]).1

theorem kdf_seen (P S out : List U8) :
    (callT T crate F (d + 7) .pbkdf2_pbkdf2_sha256 [bytes P, bytes S, .usize 1, bytes out]).1 =
      kdfSeen T F d P.length S.length out.length :=
  same_trace T F (d + 7) .pbkdf2_pbkdf2_sha256 (by decide +kernel)
    (.cons (low_bytes (by simp)) (.cons (low_bytes (by simp)) (.cons rfl (.cons (low_bytes (by simp)) .nil))))

theorem mapM_shape (r : Nat) (f : List Block → M (List Block)) (cs : List (List Block))
    (h : ∀ c ∈ cs, ∃ b, f c = .ok b ∧ Shape r b) :
    ∃ bs, cs.mapM f = .ok bs ∧ bs.length = cs.length ∧ ∀ b ∈ bs, Shape r b := by
  induction cs with
  | nil => exact ⟨[], rfl, rfl, by simp⟩
  | cons c cs ih =>
    obtain ⟨b, e, hb⟩ := h c (by simp)
    obtain ⟨bs, e', hl, hbs⟩ := ih fun c hc => h c (by simp [hc])
    refine ⟨b :: bs, by rw [List.mapM_cons, e, e']; rfl, by simp [hl], ?_⟩
    simpa using ⟨hb, hbs⟩

/-- A string cut into blocks of 64 bytes. -/
def pieces (c : List U8) : List Block := (List.range (c.length / 64)).map fun i => (c.drop (64 * i)).take 64

/-- What is seen of `ro_mix`. -/
def roTrace (s : Scrypt) (B : List U8) : Trace :=
  [.sizes [s.n], .count s.n] ++ (List.range s.n).flatMap (fillTrace T F d s) ++
    .count s.n :: (List.range s.n).flatMap fun k => mixTrace T F d s (word T.bits s.r s.n B k)

/-- What is seen of `derive`, for lengths of the passphrase, the salt and the output, when the lanes are `lanes`. -/
def deriveTrace (s : Scrypt) (np ns no : Nat) (lanes : List (List U8)) : Trace :=
  [.branch false, .branch false, .branch false, .branch false, .sizes [s.p * 128 * s.r], .call .pbkdf2_pbkdf2_sha256] ++
    kdfSeen T F d np ns (s.p * 128 * s.r) ++ [.sizes [s.p * 128 * s.r, 128 * s.r], .count s.p] ++
    (List.range s.p).flatMap (fun _ => [.sizes [128 * s.r, 64], .count (2 * s.r)]) ++ .count s.p ::
    lanes.flatMap (fun B => .call .scrypt_Scrypt_ro_mix :: roTrace T F d s B) ++
    [.sizes [s.p], .sizes [s.p * (2 * s.r)], .call .pbkdf2_pbkdf2_sha256] ++ kdfSeen T F d np (s.p * 128 * s.r) no

theorem sum_const (l : List (List α)) (k : Nat) (h : ∀ x ∈ l, x.length = k) : (l.map List.length).sum = l.length * k := by
  induction l with
  | nil => simp
  | cons x xs ih => rw [List.map_cons, List.sum_cons, ih fun y hy => h y (by simp [hy]), h x (by simp), List.length_cons, Nat.succ_mul, Nat.add_comm]

theorem trace_derive (s : Scrypt) (P S out : List U8) (hr : 1 ≤ s.r) (e : Nat) (hn : s.n = 2 ^ e) (hp : 1 ≤ s.p)
    (hmem : s.p * 128 * s.r ≤ T.isizeMax) (htab : s.n * T.vecSize ≤ T.isizeMax) (hP : Verif.Sha256.Fits T P.length) (hS : Verif.Sha256.Fits T (68 + S.length))
    :
    (callT T crate F (d + 8) .scrypt_Scrypt_derive [encScrypt s, bytes P, bytes S, bytes out]).1 = deriveTrace T F d s P.length S.length out.length
      ((List.range s.p).map fun i => ((kdfOn T P S (s.p * 128 * s.r)).drop (128 * s.r * i)).take (128 * s.r)) := by
  have hlt : s.p * 128 * s.r < 2 ^ T.bits := Nat.lt_of_le_of_lt hmem (isizeMax_lt T)
  have h1 : ¬ s.r < 1 := by omega
  have hn1 : 1 ≤ s.n := by rw [hn]; exact Nat.two_pow_pos e
  have h2 : ¬ s.n < 1 := by omega
  have h3 : (s.n - 1) &&& s.n = 0 := (n_pow s.n hn1).2 ⟨e, hn⟩
  have h4 : ¬ s.p < 1 := by omega
  have hm1 : s.p * 128 ≤ s.p * 128 * s.r := Nat.le_mul_of_pos_right _ hr
  have hm2 : 128 * s.r ≤ s.p * 128 * s.r := by rw [Nat.mul_assoc]; exact Nat.le_mul_of_pos_left _ hp
  have hs1 : T.mul s.p 2 = .ok (s.p * 2) := T.mul_ok (by omega)
  have hs2 : T.mul (s.p * 2) 64 = .ok (s.p * 128) := by rw [T.mul_ok (by omega), Nat.mul_assoc]
  have hs3 : T.mul (s.p * 128) s.r = .ok (s.p * 128 * s.r) := T.mul_ok hlt
  have hs4 : T.mul 128 s.r = .ok (128 * s.r) := T.mul_ok (by omega)
  have hk := kdf_ok T P S (List.replicate (s.p * 128 * s.r) 0#8) hP hS (by rw [List.length_replicate]; exact hmem)
  have hc := src_pbkdf2 T F d P S (List.replicate (s.p * 128 * s.r) 0#8) 1 (by rw [List.length_replicate]; exact hmem)
  have hks := kdf_seen T F d P S (List.replicate (s.p * 128 * s.r) 0#8)
  rw [List.length_replicate] at hk hks
  unfold PBKDF2_ROUNDS at hk
  rw [hk] at hc
  simp only [bytes] at hc hks
  have hcap : 2 * s.r * T.vecSize ≤ T.isizeMax := by
    have h2 : 2 * s.r * T.vecSize ≤ 2 * s.r * 24 := Nat.mul_le_mul_left _ (vecSize_le T)
    omega
  have he : e ≤ T.bits := by
    have h1 : s.n ≤ s.n * T.vecSize := Nat.le_mul_of_pos_right _ (vecSize_pos T)
    have h2 := isizeMax_lt T
    have : 2 ^ e < 2 ^ T.bits := by omega
    exact Nat.le_of_lt ((Nat.pow_lt_pow_iff_right (by decide)).mp this)
  show (evalT (ctxT T F (d + 7)) Gen.fn_scrypt_Scrypt_derive.body [(.self, encScrypt s), (.passphrase, bytes P), (.salt, bytes S), (.out, bytes out)]).1 = _
  evaluate [Gen.fn_scrypt_Scrypt_derive, ctxT_erase, h1, h2, h3, h4, Small.sub, Small.mul, hs1, hs2, hs3, hs4, T.reserve_ok (show s.p * 128 * s.r * 1 ≤ T.isizeMax by omega),T.reserve_ok hmem]
  simp only [Vector.toList_replicate]
  generalize List.replicate (s.p * 128 * s.r) 0#8 = raw0 at *
  have hce := chunksExact_ok (kdfOn T P S (s.p * 128 * s.r)) (128 * s.r) (by omega)
  evaluate [hks, hc, ctxT_erase, Small.mul, hs4, hce]
  rw [kdfOn_length, show s.p * 128 * s.r / (128 * s.r) = s.p by rw [Nat.mul_assoc, Nat.mul_div_cancel _ (by omega)]]
  have hlen : ∀ i < s.p, (((kdfOn T P S (s.p * 128 * s.r)).drop (128 * s.r * i)).take (128 * s.r)).length = 128 * s.r := by
    intro i hi
    rw [List.length_take, List.length_drop, kdfOn_length]
    have : 128 * s.r * i + 128 * s.r ≤ s.p * 128 * s.r := by
      calc 128 * s.r * i + 128 * s.r = 128 * s.r * (i + 1) := by rw [Nat.mul_succ]
        _ ≤ 128 * s.r * s.p := Nat.mul_le_mul_left _ hi
        _ = s.p * 128 * s.r := by rw [Nat.mul_comm (128 * s.r) s.p, Nat.mul_assoc]
    omega
  generalize hcs : (List.range s.p).map (fun i => ((kdfOn T P S (s.p * 128 * s.r)).drop (128 * s.r * i)).take (128 * s.r)) = cs at *
  have hcl : ∀ c ∈ cs, c.length = 128 * s.r := by
    subst hcs
    intro c hc
    rw [List.mem_map] at hc
    obtain ⟨i, hi, rfl⟩ := hc
    exact hlen i (List.mem_range.1 hi)
  have hcl' : cs.length = s.p := by rw [← hcs, List.length_map, List.length_range]
  rw [List.map_map]
  erw [mapTr_eq (fun c : List U8 => .seq (c.map .u8)) (fun _ => [.sizes [128 * s.r, 64], .count (2 * s.r)]) cs,
    mapLoop_pure (fun c : List U8 => .seq (c.map .u8)) blocks pieces cs]
  · evaluate [ctxT_erase]
    have hsh : ∀ b ∈ cs.map pieces, Shape s.r b := by
      intro b hb
      rw [List.mem_map] at hb
      obtain ⟨c, hc, rfl⟩ := hb
      exact blocks_shape s.r c (hcl c hc)
    have hok : ∀ b ∈ cs.map pieces, ∃ b', s.ro_mix T b = .ok b' ∧ Shape s.r b' := fun b hb =>
      (ro_mix_ok T s b hr hn1 (hsh b hb) hcap htab).imp fun _ h => ⟨h.1, h.2.1⟩
    obtain ⟨bs, hbs, hbl, hb⟩ := mapM_shape s.r (fun elem => s.ro_mix T elem) _ hok
    rw [mapTr_eq blocks (fun b => .call .scrypt_Scrypt_ro_mix :: roTrace T F d s b.flatten) (cs.map pieces),
      mapLoop_model blocks blocks (fun elem => s.ro_mix T elem), hbs]
    · have hks' := kdf_seen T F d P
      simp only [bytes] at hks'
      have h3 := fun (b : List (List Block)) => flattenVals_map (fun x : Block => .seq (x.map .u8)) b
      have h4 := fun (b : List Block) => flattenVals_map Val.u8 b
      have h5 : ∀ b : List (List Block), b.map blocks = b.map fun x => .seq (x.map fun x => .seq (x.map .u8)) := fun _ => rfl
      evaluate [ctxT_erase, hks', h3, h4, h5]
      rw [after_quiet _ _ fun _ env => by evaluate [], sum_const bs (2 * s.r) fun b h => (hb b h).1,
        sum_const bs.flatten 64 fun x hx => by
          obtain ⟨b, hb', hx⟩ := List.mem_flatten.1 hx
          exact (hb b hb').2 x hx, List.length_flatten, sum_const bs (2 * s.r) fun b h => (hb b h).1, hbl, List.length_map, hcl']
      rw [show s.p * (2 * s.r) * 64 = s.p * 128 * s.r by
          rw [Nat.mul_assoc, show 2 * s.r * 64 = 128 * s.r by omega, Nat.mul_assoc]]
      rw [deriveTrace, List.flatMap_map, show cs.flatMap (fun _ => [Event.sizes [128 * s.r, 64], .count (2 * s.r)]) =
        (List.range s.p).flatMap fun _ => [Event.sizes [128 * s.r, 64], .count (2 * s.r)] by
          rw [← hcl', List.flatMap_def, List.flatMap_def, List.map_const', List.map_const', List.length_range]]
      rw [show cs.flatMap (fun c => Event.call .scrypt_Scrypt_ro_mix :: roTrace T F d s (pieces c).flatten) =
        cs.flatMap fun c => Event.call .scrypt_Scrypt_ro_mix :: roTrace T F d s c from
          List.flatMap_congr fun c hc => by rw [pieces, blocks_flatten s.r c (hcl c hc)]]
      simp only [List.append_assoc, List.cons_append, List.nil_append, List.append_nil]
    · intro b _
      evaluate []
    · intro b hb
      have := trace_ro_mix T F d s b hr e he hn (hsh b hb) hcap htab
      evaluate [ctxT_erase, seenOfPat, this, roTrace]
    · intro b hb
      obtain ⟨b', h, -⟩ := hok b hb
      exact ⟨blocks b', by evaluate [h]⟩
  · intro c hc
    have hce := chunksExact_ok c 64 (by decide)
    evaluate [hce, pieces, blocks]
    rw [List.map_map]
    erw [mapLoop_pure (fun c : List U8 => .seq (c.map .u8)) (fun c : List U8 => .seq (c.map .u8)) (fun c => c)]
    · evaluate [List.map_id']
    · intro c _
      evaluate []
  · intro c hc
    have hce := chunksExact_ok c 64 (by decide)
    evaluate [hce, ctxT_erase, seenOfPat]
    refine ⟨hcl c hc, by rw [hcl c hc]; omega, ?_⟩
    rw [List.map_map]
    erw [mapTr_eq (fun c : List U8 => .seq (c.map .u8)) (fun _ => [])]
    · simp
    · intro x _
      evaluate [ctxT_erase, seenOfPat]
    · intro x _
      exact ⟨.seq (x.map .u8), by evaluate [ctxT_erase]⟩
  · intro c hc
    have hce := chunksExact_ok c 64 (by decide)
    refine ⟨blocks (pieces c), ?_⟩
    evaluate [hce, pieces, blocks]
    rw [List.map_map]
    erw [mapLoop_pure (fun c : List U8 => .seq (c.map .u8)) (fun c : List U8 => .seq (c.map .u8)) (fun c => c)]
    · evaluate [List.map_id']
    · intro c _
      evaluate []

/-- From the trace of the second loop, the words. -/
theorem mixTrace_inj {s : Scrypt} {w w' : Nat} (h : mixTrace T F d s w = mixTrace T F d s w') : w = w' := by
  simp only [mixTrace, List.cons_append, List.append_assoc, List.cons.injEq, true_and] at h
  have h := List.append_cancel_left h
  simpa using (List.cons.inj h).1

theorem mixTrace_length (s : Scrypt) (w w' : Nat) : (mixTrace T F d s w).length = (mixTrace T F d s w').length := by
  simp [mixTrace]

/-- Concatenations of pieces of the same lengths are equal only if the pieces are. -/
theorem flatMap_inj {α β : Type} {f : α → List β} {l : List α} {g : α → List β} (hl : ∀ x ∈ l, (f x).length = (g x).length)
    (h : l.flatMap f = l.flatMap g) : ∀ x ∈ l, f x = g x := by
  induction l with
  | nil => simp
  | cons x xs ih =>
    rw [List.flatMap_cons, List.flatMap_cons] at h
    obtain ⟨h1, h2⟩ := List.append_inj h (hl x (by simp))
    simpa using ⟨h1, ih (fun y hy => hl y (by simp [hy])) h2⟩

theorem roTrace_length (s : Scrypt) (B B' : List U8) : (roTrace T F d s B).length = (roTrace T F d s B').length := by
  simp only [roTrace, List.length_append, List.length_cons, List.length_flatMap]
  congr 3
  apply List.map_congr_left
  intro k _
  exact mixTrace_length ..

theorem roTrace_iff (s : Scrypt) (B B' : List U8) :
    roTrace T F d s B = roTrace T F d s B' ↔ ∀ k < s.n, word T.bits s.r s.n B k = word T.bits s.r s.n B' k := by
  constructor
  · intro h k hk
    have h := (List.cons.inj (List.append_cancel_left h)).2
    exact mixTrace_inj T F d (flatMap_inj (fun _ _ => mixTrace_length ..) h k (List.mem_range.2 hk))
  · intro h
    rw [roTrace, roTrace]
    congr 2
    exact List.flatMap_congr fun k hk => by rw [h k (List.mem_range.1 hk)]

theorem deriveTrace_iff (s : Scrypt) (np ns no : Nat) (f g : Nat → List U8) :
    deriveTrace T F d s np ns no ((List.range s.p).map f) = deriveTrace T F d s np ns no ((List.range s.p).map g) ↔
      ∀ i < s.p, ∀ k < s.n, word T.bits s.r s.n (f i) k = word T.bits s.r s.n (g i) k := by
  constructor
  · intro h i hi
    rw [deriveTrace, deriveTrace] at h
    have h := (List.cons.inj (List.append_cancel_left (List.append_cancel_right (List.append_cancel_right h)))).2
    rw [List.flatMap_map, List.flatMap_map] at h
    have h := flatMap_inj (fun i _ => by rw [List.length_cons, List.length_cons, roTrace_length]) h i (List.mem_range.2 hi)
    exact (roTrace_iff T F d s _ _).1 (List.cons.inj h).2
  · intro h
    rw [deriveTrace, deriveTrace, List.flatMap_map, List.flatMap_map]
    congr 4
    exact List.flatMap_congr fun i hi => by rw [(roTrace_iff T F d s _ _).2 (h i (List.mem_range.1 hi))]

/-! ### C76 -/

/-- Lane `i` of scrypt: the `i`-th string of `128 * r` bytes of `PBKDF2 (P, S, 1, p * 128 * r)` (RFC 7914, section 6, step 1). -/
def lane (P S : List U8) (r p i : Nat) : List U8 :=
  ((Spec.Pbkdf2.pbkdf2HmacSha256 P S 1 (p * 128 * r)).drop (128 * r * i)).take (128 * r)

/-- The number `Integerify (X)` that step `k` of `scryptROMix` reduces modulo `N` in lane `i` (RFC 7914, section 5, step 3). -/
def position (P S : List U8) (r N p i k : Nat) : Nat := Spec.Scrypt.integerify r (Spec.Scrypt.X r N (lane P S r p i) k)

/-- **C76.** Take two executions of `derive` on a `Scrypt` made by `new(r, n, p)` with acceptable parameters, whose passphrases,
salts and output buffers have the same lengths. They look the same to an observer exactly if in every lane and every step of
scrypt the numbers `Integerify (X)`, which select the table entry to read, agree in their low 32 or 64 bits. -/
theorem C76_scrypt (T : Target) (fuel depth : Nat) (hd : 8 ≤ depth) (r n p : Nat) (P S out P' S' out' : List U8)
    (hr : 1 ≤ r) (hn : ∃ e, n = 2 ^ e) (hp : 1 ≤ p) (hmem : p * 128 * r ≤ T.isizeMax) (htab : n * T.vecSize ≤ T.isizeMax)
    (hP : 8 * P.length < 2 ^ T.bits) (hS : 8 * (64 + S.length + 4) < 2 ^ T.bits)
    (lenP : P.length = P'.length) (lenS : S.length = S'.length) (lenOut : out.length = out'.length)
    (self : Val) (os : List Val) (hnew : call T crate fuel depth .scrypt_Scrypt_new [.usize r, .usize n, .usize p] = .ok (self, os)) :
    (callT T crate fuel depth .scrypt_Scrypt_derive [self, bytes P, bytes S, bytes out]).1 =
      (callT T crate fuel depth .scrypt_Scrypt_derive [self, bytes P', bytes S', bytes out']).1 ↔
    ∀ i < p, ∀ k < n, position P S r n p i k % 2 ^ T.bits = position P' S' r n p i k % 2 ^ T.bits := by
  obtain ⟨d, rfl⟩ := Nat.exists_eq_add_of_le' hd
  obtain ⟨e, hn⟩ := hn
  rw [src_Scrypt_new] at hnew
  obtain rfl : encScrypt (Scrypt.new r n p) = self := by cases hnew; rfl
  have hk : kdfOn T P S (p * 128 * r) = Spec.Pbkdf2.pbkdf2HmacSha256 P S 1 (p * 128 * r) :=
    Verif.Pbkdf2.pbkdf2_prfOn_eq T P S 1 _ hP (by omega)
  have hk' : kdfOn T P' S' (p * 128 * r) = Spec.Pbkdf2.pbkdf2HmacSha256 P' S' 1 (p * 128 * r) :=
    Verif.Pbkdf2.pbkdf2_prfOn_eq T P' S' 1 _ (by omega) (by omega)
  rw [trace_derive T fuel d (Scrypt.new r n p) P S out hr e hn hp hmem htab (.inr hP) (.inr (by omega)),
    trace_derive T fuel d (Scrypt.new r n p) P' S' out' hr e hn hp hmem htab (.inr (by omega)) (.inr (by omega)),
    lenP, lenS, lenOut, deriveTrace_iff]
  show (∀ i < p, ∀ k < n, word T.bits r n (((kdfOn T P S (p * 128 * r)).drop (128 * r * i)).take (128 * r)) k =
    word T.bits r n (((kdfOn T P' S' (p * 128 * r)).drop (128 * r * i)).take (128 * r)) k) ↔ _
  rw [hk, hk']
  rfl

/-- **C76.** So an observer who cannot tell two executions apart has seen both read the same table entries. -/
theorem C76_entries (T : Target) (fuel depth : Nat) (hd : 8 ≤ depth) (r n p : Nat) (P S out P' S' out' : List U8)
    (hr : 1 ≤ r) (hn : ∃ e, n = 2 ^ e) (hp : 1 ≤ p) (hmem : p * 128 * r ≤ T.isizeMax) (htab : n * T.vecSize ≤ T.isizeMax)
    (hP : 8 * P.length < 2 ^ T.bits) (hS : 8 * (64 + S.length + 4) < 2 ^ T.bits)
    (lenP : P.length = P'.length) (lenS : S.length = S'.length) (lenOut : out.length = out'.length)
    (self : Val) (os : List Val) (hnew : call T crate fuel depth .scrypt_Scrypt_new [.usize r, .usize n, .usize p] = .ok (self, os))
    (h : (callT T crate fuel depth .scrypt_Scrypt_derive [self, bytes P, bytes S, bytes out]).1 =
      (callT T crate fuel depth .scrypt_Scrypt_derive [self, bytes P', bytes S', bytes out']).1) (i : Nat) (hi : i < p) (k : Nat)
    (hk : k < n) : position P S r n p i k % n = position P' S' r n p i k % n := by
  have h := (C76_scrypt T fuel depth hd r n p P S out P' S' out' hr hn hp hmem htab hP hS lenP lenS lenOut self os hnew).1 h i hi k hk
  obtain ⟨e, rfl⟩ := hn
  have he : e ≤ T.bits := by
    have h1 : 2 ^ e ≤ 2 ^ e * T.vecSize := Nat.le_mul_of_pos_right _ (vecSize_pos T)
    have h2 := isizeMax_lt T
    have : 2 ^ e < 2 ^ T.bits := by omega
    exact Nat.le_of_lt ((Nat.pow_lt_pow_iff_right (by decide)).mp this)
  have h := congrArg (· % 2 ^ e) h
  simpa only [Nat.mod_mod_of_dvd _ (Nat.pow_dvd_pow 2 he)] using h

def lane1 : List U8 := Spec.beBytes 128 76562279606426815685347810822552042063238634964212752852449342300779929488518578780613955732809550790806455530923407897462091110113740564140116205517299212900344327384131404800642980446259886818817474624639867988105405593936838466867557105491144786883803649490020515257873272580343019854991781316258335542861

def lane2 : List U8 := Spec.beBytes 128 145792713483607411675965574399536867492804609884160316520721878379634489141183452086924925617270892711705716211342317673500078820534345130747541047930773959794174145709256570706295380099220863132092138745972915520665245002264054356016090229294524765145583075082817779207973723438336390271072167370816410489718

theorem kdf_model (P S B : List U8) (hP : P.length < 100) (hS : S.length < 100)
    (h : Verif.Pbkdf2.pbkdf2_sha256 ⟨.w64, true⟩ P S 1 (List.replicate 128 0) = .ok B) :
    Spec.Pbkdf2.pbkdf2HmacSha256 P S 1 128 = B := by
  have h1 := kdf_ok ⟨.w64, true⟩ P S (List.replicate 128 0) (Verif.Sha256.Fits.small _ (by omega)) (Verif.Sha256.Fits.small _ (by omega))
    (by rw [List.length_replicate]; decide)
  rw [List.length_replicate] at h1
  have h2 : kdfOn ⟨.w64, true⟩ P S 128 = Spec.Pbkdf2.pbkdf2HmacSha256 P S 1 128 :=
    Verif.Pbkdf2.pbkdf2_prfOn_eq ⟨.w64, true⟩ P S 1 _ (by show _ < 2 ^ 64; omega) (by show _ < 2 ^ 64; omega)
  rw [← h2]
  exact Except.ok.inj (h1.symm.trans h)

theorem lane1_eq : Spec.Pbkdf2.pbkdf2HmacSha256 [1] [2] 1 128 = lane1 := kdf_model _ _ _ (by simp) (by simp) (by decide +kernel)

theorem lane2_eq : Spec.Pbkdf2.pbkdf2HmacSha256 [2] [2] 1 128 = lane2 := kdf_model _ _ _ (by simp) (by simp) (by decide +kernel)

theorem first_entry1 : Spec.Scrypt.integerify 1 (Spec.Scrypt.X 1 2 lane1 0) % 2 = 0 := by decide +kernel

theorem first_entry2 : Spec.Scrypt.integerify 1 (Spec.Scrypt.X 1 2 lane2 0) % 2 = 1 := by decide +kernel

theorem lane_one (P S B : List U8) (h : Spec.Pbkdf2.pbkdf2HmacSha256 P S 1 128 = B) (hB : B.length = 128) : lane P S 1 1 0 = B := by
  rw [lane, show 1 * 128 * 1 = 128 from rfl, h, Nat.mul_zero, List.drop_zero, List.take_of_length_le (by omega)]

/-- **C76.** The entries do depend on the passphrase: with the salt `[2]` and `r = 1`, `n = 2`, `p = 1`, the first step reads entry 0
of the table for the passphrase `[1]` and entry 1 for the passphrase `[2]`, so the two executions look different, on every target. -/
theorem C76_leaks (T : Target) (fuel depth : Nat) (hd : 8 ≤ depth) (self : Val) (os : List Val)
    (hnew : call T crate fuel depth .scrypt_Scrypt_new [.usize 1, .usize 2, .usize 1] = .ok (self, os)) :
    position [1] [2] 1 2 1 0 0 % 2 = 0 ∧ position [2] [2] 1 2 1 0 0 % 2 = 1 ∧
    (callT T crate fuel depth .scrypt_Scrypt_derive [self, bytes [1], bytes [2], bytes [0, 0]]).1 ≠
      (callT T crate fuel depth .scrypt_Scrypt_derive [self, bytes [2], bytes [2], bytes [0, 0]]).1 := by
  have h1 : position [1] [2] 1 2 1 0 0 % 2 = 0 := by
    rw [position, lane_one _ _ _ lane1_eq (by simp [lane1, Spec.beBytes])]; exact first_entry1
  have h2 : position [2] [2] 1 2 1 0 0 % 2 = 1 := by
    rw [position, lane_one _ _ _ lane2_eq (by simp [lane2, Spec.beBytes])]; exact first_entry2
  refine ⟨h1, h2, fun h => ?_⟩
  have hb := T.two_pow_ge
  have hi : 2 ^ 31 - 1 ≤ T.isizeMax := by
    rw [Target.isizeMax]; rcases T.bits_cases with h | h <;> rw [h] <;> decide
  have hv := vecSize_le T
  have := C76_entries T fuel depth hd 1 2 1 [1] [2] [0, 0] [2] [2] [0, 0] (by decide) ⟨1, rfl⟩ (by decide) (by omega) (by omega)
    (by simp; omega) (by simp; omega) rfl rfl rfl self os hnew h 0 (by decide) 0 (by decide)
  omega

/-- Both parts of C76, applied to a passphrase and itself, and `C76_leaks`. -/
example (T : Target) (fuel : Nat) : ∃ self self',
    (∀ i < 16, ∀ k < 1024, position (List.replicate 8 1) (List.replicate 16 2) 8 1024 16 i k % 2 ^ T.bits =
      position (List.replicate 8 1) (List.replicate 16 2) 8 1024 16 i k % 2 ^ T.bits) ∧
    (callT T crate fuel 8 .scrypt_Scrypt_derive [self, bytes (List.replicate 8 1), bytes (List.replicate 16 2), bytes (List.replicate 32 3)]).1 =
      (callT T crate fuel 8 .scrypt_Scrypt_derive [self, bytes (List.replicate 8 1), bytes (List.replicate 16 2), bytes (List.replicate 32 4)]).1 ∧
    (callT T crate fuel 8 .scrypt_Scrypt_derive [self', bytes [1], bytes [2], bytes [0, 0]]).1 ≠
      (callT T crate fuel 8 .scrypt_Scrypt_derive [self', bytes [2], bytes [2], bytes [0, 0]]).1 := by
  have hb := T.two_pow_ge
  have hi : 2 ^ 31 - 1 ≤ T.isizeMax := by
    rw [Target.isizeMax]; rcases T.bits_cases with h | h <;> simp [h]
  have hv := vecSize_le T
  refine ⟨_, _, fun _ _ _ _ => rfl, (C76_scrypt T fuel 8 (Nat.le_refl 8) 8 1024 16 (List.replicate 8 1) (List.replicate 16 2) (List.replicate 32 3)
    (List.replicate 8 1) (List.replicate 16 2) (List.replicate 32 4) (by decide) ⟨10, rfl⟩ (by decide) (by omega) (by omega) (by simp; omega) (by simp; omega)
    rfl rfl rfl _ _ (src_Scrypt_new ..)).2 fun _ _ _ _ => rfl, (C76_leaks T fuel 8 (Nat.le_refl 8) _ _ (src_Scrypt_new ..)).2.2⟩

/-- The hypotheses of C76 are met by `Scrypt::new(8, 1024, 16)` with passphrases of 8 bytes, salts of 16 and buffers of 32, on every target,
and those of `C76_leaks` by `Scrypt::new(1, 2, 1)`. -/
example (T : Target) (fuel : Nat) :
    (∃ self os, call T crate fuel 8 .scrypt_Scrypt_new [.usize 8, .usize 1024, .usize 16] = .ok (self, os)) ∧
    (∃ self os, call T crate fuel 8 .scrypt_Scrypt_new [.usize 1, .usize 2, .usize 1] = .ok (self, os)) ∧
    16 * 128 * 8 ≤ T.isizeMax ∧ 1024 * T.vecSize ≤ T.isizeMax ∧ 8 * (List.replicate 8 (1 : U8)).length < 2 ^ T.bits ∧
    8 * (64 + (List.replicate 16 (2 : U8)).length + 4) < 2 ^ T.bits := by
  have hb := T.two_pow_ge
  have hi : 2 ^ 31 - 1 ≤ T.isizeMax := by
    rw [Target.isizeMax]; rcases T.bits_cases with h | h <;> rw [h] <;> decide
  have hv := vecSize_le T
  exact ⟨⟨_, _, src_Scrypt_new ..⟩, ⟨_, _, src_Scrypt_new ..⟩, by omega, by omega, by simp; omega, by simp; omega⟩

end Verif.Props.SideChannelScrypt
