import Verif.Source.Refine.Pbkdf2
import Verif.Source.Refine.Salsa20
import Verif.Model.Scrypt

/-! The functions of `src/scrypt.rs` compute what the model says. -/

set_option linter.constructorNameAsVariable false
set_option backward.isDefEq.respectTransparency false

namespace Verif.Source
open Verif Verif.Scrypt Verif.Pbkdf2 Verif.Salsa20

variable (T : Target) (F d : Nat)

@[src] theorem const_SALSA_ROUNDS : constVal T crate .scrypt_SALSA_ROUNDS = .ok (.usize 4) := rfl
@[src] theorem const_PBKDF2_ROUNDS : constVal T crate .scrypt_PBKDF2_ROUNDS = .ok (.usize 1) := rfl
@[src] theorem const_scrypt_BLOCK_SIZE : constVal T crate .scrypt_BLOCK_SIZE = .ok (.usize 64) := rfl

/-- A `Vec<Block>` as a value of the source. -/
def blocks (b : List (List U8)) : Val := .seq (b.map fun x => .seq (x.map .u8))
/-- A `Scrypt` as a value of the source. -/
def encScrypt (s : Scrypt) : Val := .struct .Scrypt [(.r, .usize s.r), (.n, .usize s.n), (.p, .usize s.p)]
@[src ↓] theorem encScrypt_r (s : Scrypt) : getAcc (encScrypt s) (.fld .r) = .ok (.usize s.r) := rfl
@[src ↓] theorem encScrypt_n (s : Scrypt) : getAcc (encScrypt s) (.fld .n) = .ok (.usize s.n) := rfl
@[src ↓] theorem encScrypt_p (s : Scrypt) : getAcc (encScrypt s) (.fld .p) = .ok (.usize s.p) := rfl

/-- A `ScryptError` as a value of the source. -/
def encScryptError : ScryptError → Val
  | .RIsTooSmall => .enum .ScryptError_RIsTooSmall []
  | .NIsTooSmall => .enum .ScryptError_NIsTooSmall []
  | .NIsNotAPowerOfTwo => .enum .ScryptError_NIsNotAPowerOfTwo []
  | .PIsTooSmall => .enum .ScryptError_PIsTooSmall []

theorem src_description (e : ScryptError) :
    call T crate F (d + 1) .scrypt_ScryptError_description [encScryptError e] = .ok (.str e.description, []) := by
  rw [call_scrypt_ScryptError_description]
  cases e <;> evaluate [Gen.fn_scrypt_ScryptError_description, encScryptError, ScryptError.description]

/-- src/scrypt.rs:30-34 `<ScryptError as Display>::fmt`: the formatter ends up with the displayed text appended. -/
theorem src_ScryptError_fmt (e : ScryptError) (s : String) :
    call T crate F (d + 2) .scrypt_ScryptError_fmt [encScryptError e, .str s] =
      .ok (.enum .Ok [.unit], [.str (s ++ e.display)]) := by
  rw [call_scrypt_ScryptError_fmt]
  evaluate [Gen.fn_scrypt_ScryptError_fmt, src_description, ScryptError.display]

theorem src_Scrypt_new (r n p : Nat) :
    call T crate F (d + 1) .scrypt_Scrypt_new [.usize r, .usize n, .usize p] = .ok (encScrypt (Scrypt.new r n p), []) := by
  rw [call_scrypt_Scrypt_new]
  evaluate [Gen.fn_scrypt_Scrypt_new, Scrypt.new, encScrypt]

@[src] theorem src_block_xor (a b : List U8) :
    call T crate F (d + 1) .scrypt_block_xor [bytes a, bytes b] = .ok (bytes (block_xor a b), []) := by
  rw [call_scrypt_block_xor]
  evaluate [Gen.fn_scrypt_block_xor, block_xor]
  rw [zipWith_zip, zipWith_zip, mapLoop_pure _ Val.u8 (fun p : U8 × U8 => p.1 ^^^ p.2)]
  · evaluate []
  · intro p _
    evaluate []

@[src] theorem src_integerify (x : List Block) :
    call T crate F (d + 1) .scrypt_integerify [blocks x] = up (integerify T x) >>= fun r => .ok (.u64 r, []) := by
  rw [call_scrypt_integerify]
  evaluate [Gen.fn_scrypt_integerify, integerify, blocks, Small.shl, Salsa20.BLOCK_SIZE]

/-- The body of the loop of step 3 of `block_mix`. -/
def shuffleStep (p : Block × Nat) (s : List Block × List Block) : M (List Block × List Block) :=
  if p.2 % 2 = 0 then .ok (s.1 ++ [p.1], s.2) else .ok (s.1, s.2 ++ [p.1])

theorem shuffle_loop (y : List Block) :
    (forEach y.zipIdx ([], []) shuffleStep >>= fun s => .ok (s.1 ++ s.2)) = .ok (Scrypt.shuffle y) := by
  rw [forEach_eq_foldl _ _ _ (fun (bs_head, bs_tail) (y_elem, i) =>
    if i % 2 = 0 then (bs_head ++ [y_elem], bs_tail) else (bs_head, bs_tail ++ [y_elem]))]
  · rfl
  · rintro ⟨p, i⟩ _ ⟨a, b⟩
    simp only [shuffleStep]
    split <;> simp_all

/-- The list that `enumerate` makes of a list of blocks. -/
theorem enum_blocks (y : List Block) :
    (y.map fun x => Val.seq (x.map .u8)).zipIdx.map (fun x => Val.tup [.usize x.2, x.1]) =
      y.zipIdx.map fun p => .tup [.usize p.2, .seq (p.1.map .u8)] := by
  apply List.ext_getElem <;> simp

@[src] theorem src_block_mix (self : Scrypt) (b : List Block) :
    call T crate F (d + 6) .scrypt_Scrypt_block_mix [encScrypt self, blocks b] =
      up (self.block_mix T b) >>= fun r => .ok (blocks r, []) := by
  rw [call_scrypt_Scrypt_block_mix]
  evaluate [Gen.fn_scrypt_Scrypt_block_mix, Scrypt.block_mix, blocks, forLoop_map]
  refine R.bind_congr fun _ => ?_
  refine R.bind_congr fun _ => ?_
  refine R.bind_congr fun x => ?_
  refine R.bind_congr fun _ => ?_
  refine R.bind_congr fun _ => ?_
  erw [forLoop_model (fun s : Block × List Block => [(.y, blocks s.2), (.x, bytes s.1), (.self, encScrypt self),
    (.b, blocks b)]) (s := (x, [])) (Scrypt.mixLoop b x) rfl]
  · evaluate [blocks, enum_blocks, forLoop_map]
    refine R.bind_congr fun s => ?_
    refine R.bind_congr fun _ => ?_
    refine R.bind_congr fun _ => ?_
    refine R.bind_congr fun _ => ?_
    erw [forLoop_model (fun t : List Block × List Block => [(.bs_tail, blocks t.2), (.bs_head, blocks t.1),
      (.y, blocks s.2), (.x, bytes s.1), (.self, encScrypt self), (.b, blocks b)]) (s := ([], []))
      (forEach s.2.zipIdx ([], []) shuffleStep) rfl]
    · have h := shuffle_loop s.2
      cases hf : forEach s.2.zipIdx ([], []) shuffleStep with
      | error e => rw [hf] at h; cases h
      | ok t =>
        rw [hf] at h
        have h : t.1 ++ t.2 = Scrypt.shuffle s.2 := by injection h
        evaluate [blocks, h]
    · intro p _ t k
      by_cases hp : p.2 % 2 = 0
      · evaluate [blocks, shuffleStep, hp, Target.rem]
      · evaluate [blocks, shuffleStep, hp, Target.rem]
  · intro p _ s k
    evaluate [blocks, SALSA_ROUNDS]

@[src] theorem src_block_mix' (self : Scrypt) (b : List Block) :
    call T crate F (d + 6) .scrypt_Scrypt_block_mix [encScrypt self, .seq (b.map fun x => .seq (x.map .u8))] =
      up (self.block_mix T b) >>= fun r => .ok (blocks r, []) := src_block_mix T F d self b

/-- The body of the first loop of `ro_mix`. -/
def fillStep (self : Scrypt) (_i : Nat) (s : List (List Block) × List Block) : M (List (List Block) × List Block) := do
  let t ← self.block_mix T s.2
  return (s.1 ++ [s.2], t)

/-- The body of the second loop of `ro_mix`. -/
def mixStep (self : Scrypt) (v : List (List Block)) (_i : Nat) (x : List Block) : M (List Block) := do
  let j ← T.rem ((← integerify T x).toNat % 2 ^ T.bits) self.n
  let vj ← idx v j
  self.block_mix T (List.zipWith (fun x_block v_block => block_xor x_block v_block) x vj)

/-- A `Vec<Vec<Block>>` as a value of the source. -/
def tables (v : List (List Block)) : Val := .seq (v.map blocks)

theorem ro_mix_model (self : Scrypt) (b : List Block) :
    self.ro_mix T b = (T.reserve T.vecSize self.n >>= fun _ => forRange 0 self.n (([] : List (List Block)), b) (fillStep T self)
      >>= fun s => forRange 0 self.n s.2 (mixStep T self s.1)) := rfl

@[src] theorem src_ro_mix (self : Scrypt) (b : List Block) :
    call T crate F (d + 7) .scrypt_Scrypt_ro_mix [encScrypt self, blocks b] =
      up (self.ro_mix T b) >>= fun r => .ok (blocks r, []) := by
  rw [call_scrypt_Scrypt_ro_mix, ro_mix_model]
  evaluate [Gen.fn_scrypt_Scrypt_ro_mix, forLoop_map]
  refine R.bind_congr fun _ => ?_
  erw [forLoop_model (fun s : List (List Block) × List Block => [(.v, tables s.1), (.x, blocks s.2), (.self, encScrypt self),
    (.b, blocks b)]) (s := ([], b)) (forRange 0 self.n ([], b) (fillStep T self)) rfl]
  · evaluate [forLoop_map]
    refine R.bind_congr fun s => ?_
    erw [forLoop_model (fun x : List Block => [(.v, tables s.1), (.x, blocks x), (.self, encScrypt self),
      (.b, blocks b)]) (forRange 0 self.n s.2 (mixStep T self s.1)) rfl]
    · evaluate []
    · intro i _ x k
      evaluate [mixStep, tables]
      refine R.bind_congr fun n => ?_
      refine R.bind_congr fun j => ?_
      refine R.bind_congr fun vj => ?_
      evaluate [blocks]
      rw [zipWith_zip, zipWith_zip, mapLoop_pure _ (fun x : Block => .seq (x.map .u8))
        (fun p : Block × Block => block_xor p.1 p.2)]
      · generalize List.map _ (x.zip vj) = t
        evaluate [blocks]
      · intro p _
        evaluate []
  · intro i _ s k
    evaluate [fillStep, tables]

/-- The `Result<(), ScryptError>` of `derive` as a value of the source. -/
def encResult : Except ScryptError Unit → Val
  | .ok _ => .enum .Ok [.unit]
  | .error e => .enum .Err [encScryptError e]

theorem src_derive (self : Scrypt) (passphrase salt out : List U8) (ho : out.length ≤ T.isizeMax) :
    call T crate F (d + 8) .scrypt_Scrypt_derive [encScrypt self, bytes passphrase, bytes salt, bytes out] =
      up (self.derive T passphrase salt out) >>= fun r => .ok (encResult r.2, [bytes r.1]) := by
  rw [call_scrypt_Scrypt_derive]
  by_cases hr : self.r < 1
  · evaluate [Gen.fn_scrypt_Scrypt_derive, Scrypt.derive, encResult, encScryptError, hr]
  by_cases hn : self.n < 1
  · evaluate [Gen.fn_scrypt_Scrypt_derive, Scrypt.derive, encResult, encScryptError, hr, hn]
  by_cases hp : (self.n - 1) &&& self.n ≠ 0
  · evaluate [Gen.fn_scrypt_Scrypt_derive, Scrypt.derive, encResult, encScryptError, hr, hn, hp, Small.sub]
  by_cases hq : self.p < 1
  · evaluate [Gen.fn_scrypt_Scrypt_derive, Scrypt.derive, encResult, encScryptError, hr, hn, hp, hq, Small.sub]
  have hp := Decidable.not_not.mp hp
  evaluate [Gen.fn_scrypt_Scrypt_derive, Scrypt.derive, hr, hn, hp, hq, Small.sub, Scrypt.BLOCK_SIZE, PBKDF2_ROUNDS]
  refine R.bind_congr fun _ => ?_
  refine R.bind_congr fun _ => ?_
  refine R.bind_congr fun size => ?_
  by_cases hs : size ≤ T.isizeMax
  rotate_left
  · evaluate [Target.reserve, hs]
  have h1 := src_pbkdf2 T F d passphrase salt (Vector.replicate size 0#8).toList 1 (by simpa using hs)
  simp only [bytes, Vector.toList_replicate] at h1
  simp only [Vector.toList_replicate]
  generalize List.replicate size 0#8 = raw at *
  evaluate [Target.reserve, hs, h1, Small.mul]
  refine R.bind_congr fun raw => ?_
  refine R.bind_congr fun _ => ?_
  refine R.bind_congr fun cs => ?_
  rw [List.map_map]
  erw [mapLoop_model (fun c : List U8 => .seq (c.map .u8)) blocks (fun chunk => chunksExact chunk 64)]
  · evaluate []
    refine R.bind_congr fun b => ?_
    rw [mapLoop_model blocks blocks (fun elem => self.ro_mix T elem)]
    · have h2 := fun bs => src_pbkdf2 T F d passphrase bs out 1 ho
      simp only [bytes] at h2
      have h3 := fun (b : List (List Block)) => flattenVals_map (fun x : Block => .seq (x.map .u8)) b
      have h4 := fun (b : List Block) => flattenVals_map Val.u8 b
      have h5 : ∀ b : List (List Block), b.map blocks = b.map fun x => .seq (x.map fun x => .seq (x.map .u8)) := fun _ => rfl
      evaluate [h2, h3, h4, h5, encResult]
    · intro x _
      evaluate []
  · intro c _
    evaluate [blocks]
    refine R.bind_congr fun cs => ?_
    rw [List.map_map]
    erw [mapLoop_pure (fun c : List U8 => .seq (c.map .u8)) (fun c : List U8 => .seq (c.map .u8)) (fun c => c)]
    · evaluate [List.map_id']
    · intro c _
      evaluate []

end Verif.Source
