import Verif.Spec.CbcMachine

/-
The streaming encryptor and decryptor of `CbcMachine.lean` with limited buffers. A call that would need more fails (no answer), but what it put into the buffer
before stays there, and further calls are possible.
-/

namespace Spec.Cbc

/-- One call on the encryptor with a buffer of `limit` octets. `write` fills the buffer as far as it goes. With more than a block in the buffer `flush` fails too:
if `strict` at once, and otherwise only after it has emptied the buffer. -/
def Enc.stepLimited (limit : Nat) (strict : Bool) (e : Enc) : Call → Enc × Option (Except Err (List Byte))
  | .init key => ((e.step (.init key)).1, some (e.step (.init key)).2)
  | .write b =>
    if limit < e.pending.length + b.length then ({ e with pending := (e.pending ++ b).take limit }, none)
    else ((e.step (.write b)).1, some (e.step (.write b)).2)
  | .flush =>
    if 16 ≤ e.pending.length then ((if strict then e else { e with pending := [] }), none)
    else ((e.step .flush).1, some (e.step .flush).2)

/-- The answers to a history of calls, `none` where there is none. -/
def Enc.runLimited (limit : Nat) (strict : Bool) : Enc → List Call → List (Option (Except Err (List Byte)))
  | _, [] => []
  | e, c :: cs => (e.stepLimited limit strict c).2 :: (e.stepLimited limit strict c).1.runLimited limit strict cs

/-- One call on the decryptor with buffers of `limit` octets, one for ciphertext and one for plaintext that is held back. `write` fills them as far as they go. Without
exactly one block held back there is nothing that `flush` can do. -/
def Dec.stepLimited (limit : Nat) (d : Dec) : Call → Dec × Option (Except Err (List Byte))
  | .init key => ((d.step (.init key)).1, some (d.step (.init key)).2)
  | .write b =>
    if limit < d.pending.length + b.length then ({ d with pending := (d.pending ++ b).take limit }, none)
    else match d.key with
      | none => ((d.step (.write b)).1, some (d.step (.write b)).2)
      | some key =>
        if limit < d.held.length + 16 * ((d.pending ++ b).length / 16) then
          ({ d with pending := tail (d.pending ++ b), iv := lastBlock d.iv (d.pending ++ b),
                    held := (d.held ++ decrypt key d.iv (d.pending ++ b)).take limit }, none)
        else ((d.step (.write b)).1, some (d.step (.write b)).2)
  | .flush =>
    if 16 < d.held.length then (d, some (.error .unfinishedBlock))
    else ((d.step .flush).1, some (d.step .flush).2)

/-- The answers to a history of calls, `none` where there is none. -/
def Dec.runLimited (limit : Nat) : Dec → List Call → List (Option (Except Err (List Byte)))
  | _, [] => []
  | d, c :: cs => (d.stepLimited limit c).2 :: (d.stepLimited limit c).1.runLimited limit cs

end Spec.Cbc
