import Verif.Source.LeftSha

/-! What the methods of `HMac` (src/hmac.rs) leave in it after a panic of one of the hashes. -/

set_option linter.constructorNameAsVariable false
set_option backward.isDefEq.respectTransparency false

namespace Verif.Source
open Verif Verif.Sha256 Verif.Hmac

variable (T : Target) (F d : Nat)

/-- `update` when the inner hash panics. -/
theorem left_HMac_update (s : HMac) (data : List U8) {p : Panic} {l : SHA256}
    (h1 : callU T crate F (d + 4) .sha256_SHA256_update [encSha s.inner, bytes data] = (.error (.panic p), [encSha l])) :
    callU T crate F (d + 5) .hmac_HMac_update [encHMac s, bytes data] = (.error (.panic p), [encHMac ⟨l, s.outer⟩]) := by
  have h := call_left (ctxU T F (d + 4)) (f := .sha256_SHA256_update) (args := [.field (.var .self) .inner, .var .data])
    (env := [(.self, encHMac s), (.data, bytes data)])
    (env1 := [(.self, encHMac s), (.data, bytes data)]) (env2 := [(.self, encHMac ⟨l, s.outer⟩), (.data, bytes data)])
    (as := [.place ⟨.self, [.fld .inner]⟩, .val (bytes data)]) (u := .unit)
    (by rw [ctxU_erase]; show evalArgs _ [.mutRef, .val] _ _ = _; evaluate [encHMac]) (by evaluate [encHMac]) h1
    (by evaluate [encHMac])
  have h3 : evalU (ctxU T F (d + 4)) Gen.fn_hmac_HMac_update.body [(.self, encHMac s), (.data, bytes data)] =
      (.error (.panic p), [(.self, encHMac ⟨l, s.outer⟩), (.data, bytes data)]) :=
    evalU_block_panics (ctxU T F (d + 4)) (pre := []) (post := []) (v := .unit) rfl h
  exact callU_eq T F (d + 4) .hmac_HMac_update (D := Gen.fn_hmac_HMac_update) rfl (args := [encHMac s, bytes data])
    (outs := [encHMac ⟨l, s.outer⟩]) h3 rfl

/-- `digest` when the digest of the inner hash panics. -/
theorem left_HMac_digest_inner (s : HMac) {p : Panic} {l : SHA256}
    (h1 : callU T crate F (d + 4) .sha256_SHA256_digest [encSha s.inner] = (.error (.panic p), [encSha l])) :
    callU T crate F (d + 5) .hmac_HMac_digest [encHMac s] = (.error (.panic p), [encHMac ⟨l, s.outer⟩]) := by
  have h := call_left (ctxU T F (d + 4)) (f := .sha256_SHA256_digest) (args := [.field (.var .self) .inner])
    (env := [(.self, encHMac s)])
    (env1 := [(.self, encHMac s)]) (env2 := [(.self, encHMac ⟨l, s.outer⟩)])
    (as := [.place ⟨.self, [.fld .inner]⟩]) (u := .unit)
    (by rw [ctxU_erase]; show evalArgs _ [.mutRef] _ _ = _; evaluate [encHMac]) (by evaluate [encHMac]) h1
    (by evaluate [encHMac])
  have h' := args_panics (ctxU T F (d + 4)) (f := .sha256_SHA256_update) (p := .field (.var .self) .outer)
    (q := ⟨.self, [.fld .outer]⟩) rfl (by rw [ctxU_erase]; evaluate [encHMac]) h
  have h3 : evalU (ctxU T F (d + 4)) Gen.fn_hmac_HMac_digest.body [(.self, encHMac s)] =
      (.error (.panic p), [(.self, encHMac ⟨l, s.outer⟩)]) :=
    evalU_block_panics (ctxU T F (d + 4)) (pre := []) (post := []) (v := .unit) rfl h'
  exact callU_eq T F (d + 4) .hmac_HMac_digest (D := Gen.fn_hmac_HMac_digest) rfl (args := [encHMac s])
    (outs := [encHMac ⟨l, s.outer⟩]) h3 rfl

/-- `digest` when the update of the outer hash panics. -/
theorem left_HMac_digest_update (s : HMac) {p : Panic} {i l : SHA256} {dg : Vector U8 32} (e1 : s.inner.digest T = .ok (i, dg))
    (h2 : callU T crate F (d + 4) .sha256_SHA256_update [encSha s.outer, bytes dg.toList] = (.error (.panic p), [encSha l])) :
    callU T crate F (d + 5) .hmac_HMac_digest [encHMac s] = (.error (.panic p), [encHMac ⟨i, l⟩]) := by
  have h := call_left (ctxU T F (d + 4)) (f := .sha256_SHA256_update)
    (args := [.field (.var .self) .outer, .call .sha256_SHA256_digest [.field (.var .self) .inner]])
    (env := [(.self, encHMac s)])
    (env1 := [(.self, encHMac ⟨i, s.outer⟩)]) (env2 := [(.self, encHMac ⟨i, l⟩)])
    (as := [.place ⟨.self, [.fld .outer]⟩, .val (bytes dg.toList)]) (u := .unit)
    (by rw [ctxU_erase]; show evalArgs _ [.mutRef, .val] _ _ = _; evaluate [encHMac, e1]) (by evaluate [encHMac]) h2
    (by evaluate [encHMac])
  have h3 : evalU (ctxU T F (d + 4)) Gen.fn_hmac_HMac_digest.body [(.self, encHMac s)] =
      (.error (.panic p), [(.self, encHMac ⟨i, l⟩)]) :=
    evalU_block_panics (ctxU T F (d + 4)) (pre := []) (post := []) (v := .unit) rfl h
  exact callU_eq T F (d + 4) .hmac_HMac_digest (D := Gen.fn_hmac_HMac_digest) rfl (args := [encHMac s])
    (outs := [encHMac ⟨i, l⟩]) h3 rfl

/-- `digest` when the digest of the outer hash panics. -/
theorem left_HMac_digest_outer (s : HMac) {p : Panic} {i o l : SHA256} {dg : Vector U8 32} (e1 : s.inner.digest T = .ok (i, dg))
    (e2 : s.outer.update T dg.toList = .ok o)
    (h3 : callU T crate F (d + 4) .sha256_SHA256_digest [encSha o] = (.error (.panic p), [encSha l])) :
    callU T crate F (d + 5) .hmac_HMac_digest [encHMac s] = (.error (.panic p), [encHMac ⟨i, l⟩]) := by
  have hpre : evalSeq (ctxU T F (d + 4)).erase
      [.call .sha256_SHA256_update
        [.field (.var .self) .outer, .call .sha256_SHA256_digest [.field (.var .self) .inner]]] .unit
      [(.self, encHMac s)] = .ok (.val .unit, [(.self, encHMac ⟨i, o⟩)]) := by
    rw [ctxU_erase]; evaluate [encHMac, e1, e2]
  have h := call_left (ctxU T F (d + 4)) (f := .sha256_SHA256_digest) (args := [.field (.var .self) .outer])
    (env := [(.self, encHMac ⟨i, o⟩)])
    (env1 := [(.self, encHMac ⟨i, o⟩)]) (env2 := [(.self, encHMac ⟨i, l⟩)])
    (as := [.place ⟨.self, [.fld .outer]⟩]) (u := .unit)
    (by rw [ctxU_erase]; show evalArgs _ [.mutRef] _ _ = _; evaluate [encHMac]) (by evaluate [encHMac]) h3
    (by evaluate [encHMac])
  have h4 : evalU (ctxU T F (d + 4)) Gen.fn_hmac_HMac_digest.body [(.self, encHMac s)] =
      (.error (.panic p), [(.self, encHMac ⟨i, l⟩)]) :=
    evalU_block_panics_last (ctxU T F (d + 4)) hpre h
  exact callU_eq T F (d + 4) .hmac_HMac_digest (D := Gen.fn_hmac_HMac_digest) rfl (args := [encHMac s])
    (outs := [encHMac ⟨i, l⟩]) h4 rfl

end Verif.Source
