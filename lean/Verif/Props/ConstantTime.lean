import Verif.Source.Secrecy
import Verif.Source.Api

/-!
C72: what an observer of the execution learns from the hashes, the key derivation of PBKDF2 and the Salsa20 core: nothing but
lengths and counts.

The observer is the one of `Verif/Source/Leak.lean`: of every evaluation of the source it sees the tests, the indices and slice
bounds, the numbers of rounds, the lengths given to library functions, the amounts of shifts, the operands of divisions and the
calls. `Low v w` says that two values differ at most in the contents of `u8`, `u32` and `u64` integers.
-/

set_option linter.constructorNameAsVariable false

namespace Verif.Props.ConstantTime
open Verif Verif.Source

/-! ### Traces of whole sessions -/

/-- `obj.f(args)` as `Source.invoke`, with what is seen of it. -/
def invokeT (T : Target) (fuel depth : Nat) (obj : Val) (c : Fn × List Val) : Trace × R (Val × Val) :=
  let r := callT T crate fuel depth c.1 (obj :: c.2)
  (.call c.1 :: r.1, r.2 >>= fun (v, outs) =>
    match outs with
    | [] => .ok (obj, v)
    | [obj'] => .ok (obj', v)
    | _ => .error .stuck)

/-- Methods called one after the other on the same object: what is seen of them, and their results. -/
def historyT (T : Target) (fuel depth : Nat) : Val → List (Fn × List Val) → Trace × R (List Val)
  | _, [] => ([], .ok [])
  | obj, c :: cs =>
    match invokeT T fuel depth obj c with
    | (t, .error e) => (t, .error e)
    | (t, .ok (obj', v)) =>
      let r := historyT T fuel depth obj' cs
      (t ++ r.1, r.2 >>= fun vs => .ok (v :: vs))

/-- A constructor, and then methods on the new object: what is seen of them, and the results of the methods. -/
def sessionT (T : Target) (fuel depth : Nat) (new : Fn × List Val) (calls : List (Fn × List Val)) : Trace × R (List Val) :=
  match callT T crate fuel depth new.1 new.2 with
  | (t, .error e) => (.call new.1 :: t, .error e)
  | (t, .ok (obj, _)) =>
    let r := historyT T fuel depth obj calls
    (.call new.1 :: t ++ r.1, r.2)

theorem invokeT_erase (T : Target) (fuel depth : Nat) (obj : Val) (c : Fn × List Val) :
    (invokeT T fuel depth obj c).2 = invoke T fuel depth obj c := by
  rw [invoke, ← callT_erase]
  rfl

theorem historyT_erase (T : Target) (fuel depth : Nat) (obj : Val) (cs : List (Fn × List Val)) :
    (historyT T fuel depth obj cs).2 = history T fuel depth obj cs := by
  induction cs generalizing obj with
  | nil => rfl
  | cons c cs ih =>
    rw [historyT, history, ← invokeT_erase]
    rcases invokeT T fuel depth obj c with ⟨t, e | ⟨obj', v⟩⟩
    · rfl
    · show ((historyT T fuel depth obj' cs).2 >>= _) = (history T fuel depth obj' cs >>= _)
      rw [ih]

/-- The sessions of `Verif/Source/Api.lean`, which the theorems C62 to C71 are about, are these. -/
theorem sessionT_erase (T : Target) (fuel depth : Nat) (new : Fn × List Val) (calls : List (Fn × List Val)) :
    (sessionT T fuel depth new calls).2 = session T fuel depth new calls := by
  rw [sessionT, session, ← callT_erase]
  rcases callT T crate fuel depth new.1 new.2 with ⟨t, e | ⟨obj, v⟩⟩
  · rfl
  · exact historyT_erase T fuel depth obj calls

/-! ### The functions that show nothing but lengths and counts -/

/-- The variables with values that have to be the same in both executions: amounts of rotations, and the block range of PBKDF2.
No entry: functions that are not claimed to be oblivious. -/
def table : Fn → Option (List (Id × Lab))
  | .sha256_rotr => some [(.s, .pub)]
  | .salsa20_rotl => some [(.s, .pub)]
  | .pbkdf2_pbkdf2_sha256 => some [(.start, .pub), (.end, .pub)]
  | .scrypt_Scrypt_ro_mix | .scrypt_Scrypt_derive | .pkcs7_Unpad_flush | .aes_double | .aes_mul | .aes_sub_word
  | .aes_expand_key | .aes_AESEncrypt_lookup_sbox | .aes_AESDecrypt_lookup_sbox | .aes_AESEncrypt_mix_column
  | .aes_AESDecrypt_mix_column | .aes_AESEncrypt_mix_columns | .aes_AESDecrypt_mix_columns | .aes_AESEncrypt_sub_bytes
  | .aes_AESDecrypt_sub_bytes | .aes_AES_init | .aes_AES_encrypt | .aes_AES_decrypt | .aes_cbc_Cipher_init
  | .aes_cbc_Cipher_write | .aes_cbc_Cipher_flush | .aes_cbc_Cipher_encrypt_block | .aes_cbc_Decipher_init
  | .aes_cbc_Decipher_write | .aes_cbc_Decipher_flush => none
  | _ => some []

set_option maxRecDepth 100000 in
theorem crate_passes (f : Fn) : crate.passes table f = true := by
  cases f <;> decide +kernel

/-- The functions of the API that are oblivious, and the oblivious helpers that scrypt, AES and CBC are made of. -/
def oblivious : List Fn :=
  [.sha256_SHA256_new, .sha256_SHA256_default, .sha256_SHA256_update, .sha256_SHA256_digest, .hmac_HMac_new, .hmac_HMac_update,
   .hmac_HMac_digest, .pbkdf2_pbkdf2_sha256, .salsa20_salsa20, .scrypt_Scrypt_new, .scrypt_Scrypt_block_mix, .scrypt_block_xor,
   .scrypt_integerify, .pkcs7_Pad_new, .pkcs7_Pad_write, .pkcs7_Pad_flush, .pkcs7_Unpad_new, .pkcs7_Unpad_write, .aes_AES_new,
   .aes_cbc_Cipher_new, .aes_cbc_Decipher_new]

/-- `f` is in the table, and none of its parameters has to be the same in both executions. -/
def plain (P : Program) (tab : Fn → Option (List (Id × Lab))) (f : Fn) : Bool :=
  match tab f with
  | some l => (P.fn f).params.all fun p => gam l p.1 = .any
  | none => false

theorem plain_iff {P : Program} {tab : Fn → Option (List (Id × Lab))} {f : Fn} (h : plain P tab f = true) :
    ∃ l, tab f = some l ∧ ∀ p ∈ (P.fn f).params, gam l p.1 = .any := by
  unfold plain at h
  split at h
  · rename_i l hl
    exact ⟨l, hl, by simpa using h⟩
  · cases h

theorem oblivious_plain : ∀ f ∈ oblivious, plain crate table f = true := by decide

theorem low_bytes {xs ys : List U8} (h : xs.length = ys.length) : Low (bytes xs) (bytes ys) := by
  apply Low.seq
  induction xs generalizing ys with
  | nil =>
    obtain rfl := List.length_eq_zero_iff.1 h.symm
    exact .nil
  | cons x xs ih =>
    rcases ys with _ | ⟨y, ys⟩
    · cases h
    · exact .cons rfl (ih (by simpa using h))

/-- **C72.** Two calls of an oblivious function, with arguments that differ at most in the contents of bytes and words, show
exactly the same, and end the same way: with the same panic, or with results that again differ at most in contents. On every
target, with any number of rounds for loops and any depth of calls. -/
theorem C72_call (T : Target) (fuel depth : Nat) (f : Fn) (hf : f ∈ oblivious) (vs ws : List Val) (h : List.Forall₂ Low vs ws) :
    CallLow (callT T crate fuel depth f vs) (callT T crate fuel depth f ws) := by
  obtain ⟨l, hl, ha⟩ := plain_iff (oblivious_plain f hf)
  exact callT_any T fuel (fun f => .inl (crate_passes f)) depth f (crate_passes f) l hl ha vs ws h

/-- Two passwords of three bytes. -/
example (T : Target) (fuel : Nat) := C72_call T fuel 8 .pbkdf2_pbkdf2_sha256 (by decide)
  [bytes [1, 2, 3], bytes [4], .usize 1000, bytes (List.replicate 40 0)] [bytes [255, 2, 0], bytes [4], .usize 1000, bytes (List.replicate 40 0)]
  (.cons (low_bytes rfl) (.cons (low_bytes rfl) (.cons rfl (.cons (low_bytes rfl) .nil))))

theorem invokeT_low (T : Target) (fuel depth : Nat) {obj obj' : Val} (ho : Low obj obj') {c c' : Fn × List Val} (hc : c.1 = c'.1)
    (hf : c.1 ∈ oblivious) (hv : List.Forall₂ Low c.2 c'.2) :
    (invokeT T fuel depth obj c).1 = (invokeT T fuel depth obj' c').1 ∧
      RelR (fun a b => Low a.1 b.1 ∧ Low a.2 b.2) (invokeT T fuel depth obj c).2 (invokeT T fuel depth obj' c').2 := by
  obtain ⟨f, vs⟩ := c
  obtain ⟨f', ws⟩ := c'
  obtain rfl : f = f' := hc
  have := C72_call T fuel depth f hf (obj :: vs) (obj' :: ws) (.cons ho hv)
  refine ⟨congrArg (Event.call f :: ·) this.1, RelR.bind this.2 fun a b hab => ?_⟩
  obtain ⟨v, os⟩ := a
  obtain ⟨w, os'⟩ := b
  rcases hab.2 with _ | ⟨h1, _ | _⟩
  · exact ⟨ho, hab.1⟩
  · exact ⟨h1, hab.1⟩
  · rfl

theorem historyT_low (T : Target) (fuel depth : Nat) {cs cs' : List (Fn × List Val)}
    (h : List.Forall₂ (fun c c' => c.1 = c'.1 ∧ c.1 ∈ oblivious ∧ List.Forall₂ Low c.2 c'.2) cs cs') {obj obj' : Val}
    (ho : Low obj obj') :
    (historyT T fuel depth obj cs).1 = (historyT T fuel depth obj' cs').1 ∧
      RelR (List.Forall₂ Low) (historyT T fuel depth obj cs).2 (historyT T fuel depth obj' cs').2 := by
  induction h generalizing obj obj' with
  | nil => exact ⟨rfl, .nil⟩
  | @cons c c' cs cs' hc hs ih =>
    have := invokeT_low T fuel depth ho hc.1 hc.2.1 hc.2.2
    rw [historyT, historyT]
    revert this
    rcases invokeT T fuel depth obj c with ⟨t, e | ⟨o, v⟩⟩ <;> rcases invokeT T fuel depth obj' c' with ⟨t', e' | ⟨o', v'⟩⟩ <;>
      intro this
    · exact ⟨this.1, this.2⟩
    · exact this.2.elim
    · exact this.2.elim
    · have hr := ih this.2.1
      obtain rfl : t = t' := this.1
      exact ⟨congrArg (t ++ ·) hr.1, RelR.bind hr.2 fun _ _ h => .cons this.2.2 h⟩

set_option linter.unusedSimpArgs false in
/-- **C72.** The same for whole sessions: a constructor and then any methods in any order, all of them oblivious. -/
theorem C72_session (T : Target) (fuel depth : Nat) (new : Fn) (hn : new ∈ oblivious) (vs ws : List Val)
    (hv : List.Forall₂ Low vs ws) (cs cs' : List (Fn × List Val))
    (h : List.Forall₂ (fun c c' => c.1 = c'.1 ∧ c.1 ∈ oblivious ∧ List.Forall₂ Low c.2 c'.2) cs cs') :
    (sessionT T fuel depth (new, vs) cs).1 = (sessionT T fuel depth (new, ws) cs').1 ∧
      RelR (List.Forall₂ Low) (sessionT T fuel depth (new, vs) cs).2 (sessionT T fuel depth (new, ws) cs').2 := by
  have := C72_call T fuel depth new hn vs ws hv
  rw [sessionT, sessionT]
  revert this
  rcases e1 : callT T crate fuel depth new vs with ⟨t, e | ⟨o, v⟩⟩ <;>
    rcases e2 : callT T crate fuel depth new ws with ⟨t', e' | ⟨o', v'⟩⟩ <;> intro this <;> simp only [e1, e2] at this ⊢
  · exact ⟨congrArg (Event.call new :: ·) this.1, this.2⟩
  · exact this.2.elim
  · exact this.2.elim
  · have hr := historyT_low T fuel depth h this.2.1
    obtain rfl : t = t' := this.1
    exact ⟨congrArg (Event.call new :: t ++ ·) hr.1, hr.2⟩

/-- Two messages of three bytes. -/
example (T : Target) (fuel : Nat) := C72_session T fuel 8 .sha256_SHA256_new (by decide) [] [] .nil
  [(.sha256_SHA256_update, [bytes [1, 2, 3]]), (.sha256_SHA256_digest, [])] [(.sha256_SHA256_update, [bytes [255, 2, 0]]), (.sha256_SHA256_digest, [])]
  (.cons ⟨rfl, by decide, .cons (low_bytes rfl) .nil⟩ (.cons ⟨rfl, by decide, .nil⟩ .nil))

/-! ### In terms of the API -/

theorem low_chunks {f : Fn} (hf : f ∈ oblivious) {g : Fn} (hg : g ∈ oblivious) {xs ys : List (List U8)}
    (h : xs.map List.length = ys.map List.length) :
    List.Forall₂ (fun c c' : Fn × List Val => c.1 = c'.1 ∧ c.1 ∈ oblivious ∧ List.Forall₂ Low c.2 c'.2)
      (xs.map (fun c => (f, [bytes c])) ++ [(g, [])]) (ys.map (fun c => (f, [bytes c])) ++ [(g, [])]) := by
  induction xs generalizing ys with
  | nil =>
    obtain rfl := List.map_eq_nil_iff.1 h.symm
    exact .cons ⟨rfl, hg, .nil⟩ .nil
  | cons x xs ih =>
    rcases ys with _ | ⟨y, ys⟩
    · cases h
    · simp only [List.map_cons, List.cons.injEq] at h
      exact .cons ⟨rfl, hf, .cons (low_bytes h.1) .nil⟩ (ih h.2)

/-- **C72.** SHA-256 shows the lengths of the parts of the message and nothing else. -/
theorem C72_sha256 (T : Target) (fuel depth : Nat) (xs ys : List (List U8)) (h : xs.map List.length = ys.map List.length) :
    (sessionT T fuel depth (.sha256_SHA256_new, [])
        (xs.map (fun c => (.sha256_SHA256_update, [bytes c])) ++ [(.sha256_SHA256_digest, [])])).1 =
      (sessionT T fuel depth (.sha256_SHA256_new, [])
        (ys.map (fun c => (.sha256_SHA256_update, [bytes c])) ++ [(.sha256_SHA256_digest, [])])).1 :=
  (C72_session T fuel depth _ (by decide) _ _ .nil _ _ (low_chunks (by decide) (by decide) h)).1

/-- **C72.** HMAC shows the length of the key and of the parts of the message and nothing else. -/
theorem C72_hmac (T : Target) (fuel depth : Nat) (key key' : List U8) (hk : key.length = key'.length) (xs ys : List (List U8))
    (h : xs.map List.length = ys.map List.length) :
    (sessionT T fuel depth (.hmac_HMac_new, [bytes key])
        (xs.map (fun c => (.hmac_HMac_update, [bytes c])) ++ [(.hmac_HMac_digest, [])])).1 =
      (sessionT T fuel depth (.hmac_HMac_new, [bytes key'])
        (ys.map (fun c => (.hmac_HMac_update, [bytes c])) ++ [(.hmac_HMac_digest, [])])).1 :=
  (C72_session T fuel depth _ (by decide) _ _ (.cons (low_bytes hk) .nil) _ _ (low_chunks (by decide) (by decide) h)).1

/-- Two keys, and two messages in pieces of the same lengths. -/
example (T : Target) (fuel : Nat) := C72_hmac T fuel 8 [1, 2] [3, 4] rfl [[5], [6, 7]] [[0], [255, 128]] rfl

/-- **C72.** PBKDF2 shows the lengths of password and salt, the number of iterations and the length of the output, and nothing
else: neither the password, nor the salt, nor what was in the output before. -/
theorem C72_pbkdf2 (T : Target) (fuel depth : Nat) (c : Nat) (p p' s s' out out' : List U8) (hp : p.length = p'.length)
    (hs : s.length = s'.length) (ho : out.length = out'.length) :
    (callT T crate fuel depth .pbkdf2_pbkdf2_sha256 [bytes p, bytes s, .usize c, bytes out]).1 =
      (callT T crate fuel depth .pbkdf2_pbkdf2_sha256 [bytes p', bytes s', .usize c, bytes out']).1 :=
  (C72_call T fuel depth _ (by decide) _ _
    (.cons (low_bytes hp) (.cons (low_bytes hs) (.cons rfl (.cons (low_bytes ho) .nil))))).1

/-- Two passwords of three bytes. -/
example (T : Target) (fuel : Nat) := C72_pbkdf2 T fuel 8 1000 [1, 2, 3] [255, 2, 0] [4] [5] (List.replicate 40 0) (List.replicate 40 9) rfl rfl rfl

/-- **C72.** The Salsa20 core shows the number of rounds and nothing of its input. -/
theorem C72_salsa20 (T : Target) (fuel depth : Nat) (rounds : Nat) (x x' out out' : List U8) (hx : x.length = x'.length)
    (ho : out.length = out'.length) :
    (callT T crate fuel depth .salsa20_salsa20 [bytes x, .usize rounds, bytes out]).1 =
      (callT T crate fuel depth .salsa20_salsa20 [bytes x', .usize rounds, bytes out']).1 :=
  (C72_call T fuel depth _ (by decide) _ _ (.cons (low_bytes hx) (.cons rfl (.cons (low_bytes ho) .nil)))).1

/-- Two inputs of 64 bytes. -/
example (T : Target) (fuel : Nat) := C72_salsa20 T fuel 8 8 (List.replicate 64 1) (List.replicate 64 2) (List.replicate 64 0) (List.replicate 64 9) rfl rfl

/-- Two different messages of the same length, in two parts of the same lengths. -/
example (T : Target) (fuel : Nat) :
    (sessionT T fuel 8 (.sha256_SHA256_new, [])
        [(.sha256_SHA256_update, [bytes [0x61]]), (.sha256_SHA256_update, [bytes [0x62, 0x63]]), (.sha256_SHA256_digest, [])]).1 =
      (sessionT T fuel 8 (.sha256_SHA256_new, [])
        [(.sha256_SHA256_update, [bytes [0]]), (.sha256_SHA256_update, [bytes [0xff, 0x80]]), (.sha256_SHA256_digest, [])]).1 :=
  C72_sha256 T fuel 8 [[0x61], [0x62, 0x63]] [[0], [0xff, 0x80]] rfl

set_option maxRecDepth 100000 in
/-- The observer does see lengths: two messages of different lengths. -/
example : (sessionT ⟨.w64, true⟩ 65 8 (.sha256_SHA256_new, []) [(.sha256_SHA256_update, [bytes [1]])]).1.length ≠
    (sessionT ⟨.w64, true⟩ 65 8 (.sha256_SHA256_new, []) [(.sha256_SHA256_update, [bytes [1, 2]])]).1.length := by
  decide +kernel

/-! ### C73: where the rest of the crate shows more -/

/-- The functions of the crate that show contents: the S-box lookups, the multiplication by two in the field of AES, the mixing
loop of scrypt, and the check of the padding. -/
def leaky : List Fn :=
  [.aes_sub_word, .aes_AESEncrypt_lookup_sbox, .aes_AESDecrypt_lookup_sbox, .aes_double, .scrypt_Scrypt_ro_mix, .pkcs7_Unpad_flush]

/-- The table for all functions. -/
def tableAll : Fn → Option (List (Id × Lab))
  | .sha256_rotr => some [(.s, .pub)]
  | .salsa20_rotl => some [(.s, .pub)]
  | .pbkdf2_pbkdf2_sha256 => some [(.start, .pub), (.end, .pub)]
  | .aes_expand_key => some [(.nk, .num)]
  | _ => some []

set_option maxRecDepth 100000 in
theorem crate_passesAll (f : Fn) (h : f ∉ leaky) : crate.passes tableAll f = true := by
  cases f <;> first | decide +kernel | exact (h (by decide)).elim

/-- The functions of the API with secret arguments. -/
def api : List Fn :=
  [.sha256_SHA256_new, .sha256_SHA256_update, .sha256_SHA256_digest, .hmac_HMac_new, .hmac_HMac_update, .hmac_HMac_digest,
   .pbkdf2_pbkdf2_sha256, .salsa20_salsa20, .scrypt_Scrypt_new, .scrypt_Scrypt_derive, .aes_AES_new, .aes_AES_init, .aes_AES_encrypt,
   .aes_AES_decrypt, .aes_cbc_Cipher_new, .aes_cbc_Cipher_init, .aes_cbc_Cipher_write, .aes_cbc_Cipher_flush,
   .aes_cbc_Decipher_new, .aes_cbc_Decipher_init, .aes_cbc_Decipher_write, .aes_cbc_Decipher_flush]

/-- `f` of the program `P` shows the same on arguments that differ at most in contents. -/
def IsOblivious (T : Target) (fuel : Nat) (P : Program) (f : Fn) : Prop :=
  ∀ depth vs ws, List.Forall₂ Low vs ws → CallLow (callT T P fuel depth f vs) (callT T P fuel depth f ws)

theorem LowLs.forall₂ {ls : List Lab} {vs ws : List Val} (h : LowLs ls vs ws) : List.Forall₂ Low vs ws := by
  induction h with
  | nil => exact .nil
  | cons h _ ih => exact .cons h.low ih

theorem api_plain : ∀ f ∈ api, f ∉ leaky ∧ plain crate tableAll f = true := by decide

/-- **C73.** The six functions of `leaky` are the only places where the crate shows contents: in every program that has the crate's
code for all other functions, and any oblivious code for these six, every function of the API is oblivious. -/
theorem C73_only_leaks (T : Target) (fuel : Nat) (P : Program) (hc : P.const = crate.const)
    (hf : ∀ f, f ∉ leaky → P.fn f = crate.fn f) (hp : ∀ f, (P.fn f).params = (crate.fn f).params)
    (hl : ∀ f ∈ leaky, IsOblivious T fuel P f) : ∀ f ∈ api, IsOblivious T fuel P f := by
  have hs : P.sec tableAll = crate.sec tableAll := by
    simp only [Program.sec, hc, hp]
  have hP : ∀ f, f ∉ leaky → P.passes tableAll f = true := fun f h => by
    rw [← crate_passesAll f h]
    simp only [Program.passes, hs, hf f h]
  have ho : ∀ f, P.Oblivious tableAll T fuel f := fun f => by
    by_cases h : f ∈ leaky
    · exact .inr fun depth ls vs ws _ hv => hl f h depth vs ws (LowLs.forall₂ hv)
    · exact .inl (hP f h)
  intro f hf' depth vs ws hv
  obtain ⟨hf', hp'⟩ := api_plain f hf'
  obtain ⟨l, hl', ha⟩ := plain_iff hp'
  exact callT_any T fuel ho depth f (hP f hf') l hl' (by rw [hp]; exact ha) vs ws hv

/-- A lookup that reads the whole table: `for i in 0..256 { r |= table[i] & mask(i ^ b) }`, with a mask that is all ones for 0 and
all zeros otherwise. -/
def scan (table : Const) : Expr :=
  .block
    [.let (.var .res) (.int .u32 0),
     .for (.var .i) (.range (.int .usize 0) (.int .usize 256))
       (.block
         [.assignOp .or (.var .res)
           (.bin .and (.from .u32 (.index (.const table) (.var .i)))
             (.prim .wrappingAdd
               [.bin .shr
                 (.prim .wrappingAdd [.bin .xor (.cast (.var .i) .u32) (.from .u32 (.var .b)), .int .u32 255]) (.int .i32 8),
                .int .u32 4294967295]))]
         .unit)]
    (.cast (.var .res) .u8)

/-- A byte of a word, looked up. -/
def scanByte (n : Nat) : Expr :=
  .from .u32 (.call .aes_AESEncrypt_lookup_sbox [.cast (.bin .shr (.var .b) (.int .i32 n)) .u8])

/-- A crate with such lookups and a doubling without a branch, and with stand-ins for the other two functions. -/
def patched : Program where
  const := crate.const
  fn
    | .aes_AESEncrypt_lookup_sbox => ⟨[(.b, .val)], scan .aes_SBOX⟩
    | .aes_AESDecrypt_lookup_sbox => ⟨[(.b, .val)], scan .aes_INV_SBOX⟩
    | .aes_double =>
      ⟨[(.b, .val)], .cast (.bin .xor (.bin .shl (.from .u32 (.var .b)) (.int .i32 1))
        (.bin .and (.int .u32 283) (.prim .wrappingAdd [.not (.bin .shr (.from .u32 (.var .b)) (.int .i32 7)), .int .u32 1]))) .u8⟩
    | .aes_sub_word =>
      ⟨[(.b, .val)], .bin .or (.bin .or (.bin .shl (scanByte 24) (.int .i32 24)) (.bin .shl (scanByte 16) (.int .i32 16)))
        (.bin .or (.bin .shl (scanByte 8) (.int .i32 8)) (scanByte 0))⟩
    | .scrypt_Scrypt_ro_mix => ⟨[(.self, .val), (.b, .val)], .var .b⟩
    | .pkcs7_Unpad_flush => ⟨[(.self, .mutRef)], .ctor .Err [.ctor .UnpadError_InvalidPadding []]⟩
    | f => crate.fn f

set_option maxRecDepth 100000 in
theorem patched_passes (f : Fn) : patched.passes tableAll f = true := by
  cases f <;> decide +kernel

theorem patched_leaky : ∀ f ∈ leaky, plain patched tableAll f = true := by decide

/-- The hypotheses of C73 can be met: in the patched crate, AES and CBC are oblivious. -/
example (T : Target) (fuel : Nat) : ∀ f ∈ api, IsOblivious T fuel patched f :=
  C73_only_leaks T fuel patched rfl (by intro f hf; cases f <;> first | rfl | exact (hf (by decide)).elim)
    (by intro f; cases f <;> rfl) fun f hf depth vs ws h => by
      obtain ⟨l, hl, ha⟩ := plain_iff (patched_leaky f hf)
      exact callT_any T fuel (fun f => .inl (patched_passes f)) depth f (patched_passes f) l hl ha vs ws h

/-- The number a call returns. -/
def answer : R (Val × List Val) → Option Nat
  | .ok (.u8 x, []) => some x.toNat
  | .ok (.u32 x, []) => some x.toNat
  | _ => none

set_option maxRecDepth 100000 in
/-- The patched functions do what the crate's do, here on one argument each. -/
example : answer (call ⟨.w64, true⟩ patched 300 8 .aes_AESEncrypt_lookup_sbox [.u8 0x53]) = some 0xed ∧
    answer (call ⟨.w64, true⟩ patched 300 8 .aes_double [.u8 0x80]) = some 0x1b := by
  decide +kernel

end Verif.Props.ConstantTime
