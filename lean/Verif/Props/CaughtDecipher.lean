import Verif.Proof.Caught
import Verif.Props.CbcHistory

/-! Property C131: what a `Decipher` does after a panic that was caught. -/

namespace Verif.Props.CaughtDecipher
open Verif Verif.Aes Verif.Pkcs7 Verif.AesCbc Verif.Growing Spec.Cbc
open Verif.Props.Aes (Holds Matches)
open Verif.Growing.Caught (U)

/-- One call on a `Decipher`, with the panic as an answer; the unit result of `init` is shown as no bytes, its error as an AES error. -/
def step (T : Target) (d : Growing.Decipher) : Call → Except Panic (Except DecipherError (List U8)) × Growing.Decipher
  | .init key => ((Caught.Decipher.init T key d).1.map fun r => (r.map fun _ => []).mapError .AES, (Caught.Decipher.init T key d).2)
  | .write b => ((Caught.Decipher.write T std b d).1.map (·.map (·.data)), (Caught.Decipher.write T std b d).2)
  | .flush => ((Caught.Decipher.flush T d).1.map (·.map (·.data)), (Caught.Decipher.flush T d).2)

/-- A history of calls on the same `Decipher`, which goes on after panics, and the answers. -/
def run (T : Target) : Growing.Decipher → List Call → List (Except Panic (Except DecipherError (List U8)))
  | _, [] => []
  | d, x :: xs => (step T d x).1 :: run T (step T d x).2 xs

/-- A new `Decipher` and a history of calls on it. -/
def session (T : Target) (iv : Vector U8 16) (calls : List Call) : M (List (Except Panic (Except DecipherError (List U8)))) := do
  let d ← Growing.Decipher.new T iv
  return run T d calls

/-- An answer as the specification names it: nothing for a panic. -/
def shown : Except Panic (Except DecipherError (List U8)) → Option (Except Err (List U8))
  | .ok r => some (r.mapError errD)
  | .error _ => none

/-- The instance is in the abstract state. -/
structure Inv (T : Target) (d : Growing.Decipher) (e : Dec) : Prop where
  key : Matches d.aes e.key
  iv : d.iv.toList = e.iv
  bsize : d.buffer.block_size = 16
  pending : d.buffer.storage.data = e.pending
  bgood : Good T d.buffer.storage
  bpow : Pow d.buffer.storage
  blen : e.pending.length < 16 ∨ e.pending.length = limit T
  usize : d.unpad.block_size = 16
  held : d.unpad.storage.data = e.held
  ugood : Good T d.unpad.storage
  upow : Pow d.unpad.storage
  ulen : e.held = [] ∨ e.held.length = 16 ∨ e.held.length = limit T

theorem step_spec (T : Target) (d : Growing.Decipher) (e : Dec) (h : Inv T d e) (x : Call) :
    Inv T (step T d x).2 (e.stepLimited (2 ^ (T.bits - 2)) x).1 ∧ shown (step T d x).1 = (e.stepLimited (2 ^ (T.bits - 2)) x).2 := by
  obtain ⟨aes, ⟨usz, u⟩, iv, ⟨bsz, v⟩⟩ := d
  have hsize : bsz = 16 := h.bsize
  have husize : usz = 16 := h.usize
  subst hsize husize
  have hdata : v.data = e.pending := h.pending
  have hheld : u.data = e.held := h.held
  have hlim := limit_large T
  have him := isizeMax_eq T
  have hle : 2 ^ (T.bits - 2) = limit T := rfl
  have hiv : iv.toList = e.iv := h.iv
  rw [hle]
  cases x with
  | init key =>
    by_cases hv : validKey key
    · obtain ⟨a, h1, h2⟩ := Verif.Props.Aes.init_valid T aes key hv
      have hs : Caught.Decipher.init T key ⟨aes, ⟨16, u⟩, iv, ⟨16, v⟩⟩ = (.ok (.ok ()), ⟨a, ⟨16, u⟩, iv, ⟨16, v⟩⟩) := by
        unfold Caught.Decipher.init
        rw [Caught.self_bind, Caught.ofM_ok _ _ _ _ h1]
        rfl
      rw [Dec.stepLimited, Dec.step, if_pos hv, step, hs]
      exact ⟨⟨h2, h.iv, rfl, h.pending, h.bgood, h.bpow, h.blen, rfl, h.held, h.ugood, h.upow, h.ulen⟩, rfl⟩
    · have hs : Caught.Decipher.init T key ⟨aes, ⟨16, u⟩, iv, ⟨16, v⟩⟩ = (.ok (.error .InvalidKeySize), ⟨aes, ⟨16, u⟩, iv, ⟨16, v⟩⟩) := by
        unfold Caught.Decipher.init
        rw [Caught.self_bind, Caught.ofM_ok _ _ _ _ (Verif.Props.Aes.init_invalid T aes key hv)]
        rfl
      rw [Dec.stepLimited, Dec.step, if_neg hv, step, hs]
      exact ⟨h, rfl⟩
  | write b =>
    rw [Dec.stepLimited]
    by_cases hb : limit T < e.pending.length + b.length
    · rw [if_pos hb]
      have hf := Caught.pushes_full T b ⟨16, v⟩ h.bgood h.bpow (by simp only [hdata]; exact hb)
      have hs : Caught.Decipher.write T std b ⟨aes, ⟨16, u⟩, iv, ⟨16, v⟩⟩ =
          (.error .capacity, ⟨aes, ⟨16, u⟩, iv, ⟨16, ⟨(v.data ++ b).take (limit T), limit T⟩⟩⟩) := by
        unfold Caught.Decipher.write
        refine Caught.bind_err _ _ _ _ _ ?_
        rw [Caught.Decipher.onBuffer]
        have : Caught.Pad.write T std b ⟨16, v⟩ = _ := Caught.bind_err _ _ _ _ _ hf
        rw [this]
      rw [step, hs]
      have hl : ((v.data ++ b).take (limit T)).length = limit T := by
        rw [List.length_take, List.length_append, hdata]
        exact Nat.min_eq_left (Nat.le_of_lt hb)
      refine ⟨⟨h.key, h.iv, rfl, by show _ = _; rw [hdata], ⟨Nat.le_of_eq hl, ?_, ?_⟩, ⟨_, rfl⟩, .inr ?_, rfl, h.held, h.ugood, h.upow, h.ulen⟩, rfl⟩
      · show 32 ≤ limit T
        omega
      · show limit T ≤ _
        omega
      · rw [← hdata]; exact hl
    · rw [if_neg hb]
      have hb' : v.data.length + b.length ≤ limit T := by rw [hdata]; exact Nat.not_lt.1 hb
      rcases pushAll_spec T std b v h.bgood with ⟨cap, h1, h2, h3, h4⟩ | ⟨_, h2⟩
      rotate_left
      · omega
      have hbpow : ∀ data, Pow ⟨data, cap⟩ := by
        intro data
        obtain ⟨k, hk⟩ := pushAll_pow T b v _ h.bgood h.bpow h1
        exact ⟨k, hk⟩
      have h32 : 32 ≤ cap := h2.room
      have hcap : cap ≤ T.isizeMax := h2.max
      obtain ⟨o, p1, p2, p3⟩ := pad_write T 16 (by decide) v.data b
      obtain ⟨o', p4, p5⟩ := rest_pad T std v.data cap b _ o v h1 h2 p1
      have p6 := Caught.pad_write_erase T std b ⟨16, v⟩ _ o' p4
      change Caught.Pad.write T std b ⟨16, v⟩ = (.ok o', ⟨16, ⟨tail (v.data ++ b), cap⟩⟩) at p6
      have htl : (tail (v.data ++ b)).length < 16 := tail_length _
      have p7 : Caught.Decipher.onBuffer (Caught.Pad.write T std b) ⟨aes, ⟨16, u⟩, iv, ⟨16, v⟩⟩ =
          (.ok o', ⟨aes, ⟨16, u⟩, iv, ⟨16, ⟨tail (v.data ++ b), cap⟩⟩⟩) := by
        rw [Caught.Decipher.onBuffer, p6]
      by_cases hs : (v.data ++ b).length < 16
      · -- not a whole block
        have ho : o' = none := by
          rw [p3.2 hs] at p5
          cases o' with
          | none => rfl
          | some x => cases p5
        subst ho
        have hw : Caught.Decipher.write T std b ⟨aes, ⟨16, u⟩, iv, ⟨16, v⟩⟩ = (.ok (.ok ⟨[], 0⟩), ⟨aes, ⟨16, u⟩, iv, ⟨16, ⟨tail (v.data ++ b), cap⟩⟩⟩) :=
          Caught.bind_ok _ _ _ _ _ p7
        have hst : e.step (.write b) = ({ e with pending := e.pending ++ b }, .ok []) := by
          rw [Dec.step, if_pos (by rw [← hdata]; exact hs)]
        have hz : (e.pending ++ b).length / 16 = 0 := Nat.div_eq_of_lt (by rw [← hdata]; exact hs)
        have hnot : ¬ limit T < e.held.length + 16 * ((e.pending ++ b).length / 16) := by
          have hul := h.ulen
          rw [hz]
          rcases hul with hul | hul | hul
          · rw [hul]; simp
          · omega
          · omega
        have hinv : Inv T ⟨aes, ⟨16, u⟩, iv, ⟨16, ⟨tail (v.data ++ b), cap⟩⟩⟩ { e with pending := e.pending ++ b } := by
          refine ⟨h.key, h.iv, rfl, ?_, ⟨?_, h32, hcap⟩, hbpow _, .inl ?_, rfl, h.held, h.ugood, h.upow, h.ulen⟩
          · show tail (v.data ++ b) = _
            rw [tail_short _ hs, hdata]
          · show (tail (v.data ++ b)).length ≤ cap
            omega
          · rw [← hdata]; exact hs
        rw [step, hw]
        cases hk : e.key with
        | none => dsimp only; rw [hst]; exact ⟨hinv, rfl⟩
        | some key => dsimp only; rw [if_neg hnot, hst]; exact ⟨hinv, rfl⟩
      · cases ho' : o' with
        | none =>
          rw [ho'] at p5
          exact absurd (p3.1 p5.symm) hs
        | some head =>
        rw [ho'] at p5 p7
        have hhead : head.data = (v.data ++ b).take (padCut 16 (v.data ++ b).length) := by
          rw [← p2, ← p5]; rfl
        have hhd : head.data.length = 16 * ((v.data ++ b).length / 16) := by
          rw [hhead, List.length_take, padCut]; omega
        have hfit : (v.data ++ b).length ≤ cap := h2.fits
        have hchunks : chunks head.data BLOCK_SIZE = .ok (blocks (v.data ++ b)) := by rw [hhead]; exact chunks_ok _
        have hbl : 16 * (blocks (v.data ++ b)).length = head.data.length := by rw [blocks_length]; omega
        have hw0 : Caught.Decipher.write T std b ⟨aes, ⟨16, u⟩, iv, ⟨16, v⟩⟩ =
            (Caught.Decipher.writeLoop T std (blocks (v.data ++ b)) ⟨[], head.data.length⟩ >>= fun r => (match r with
              | .error e => return .error e
              | .ok padded_result => do
                let res ← Caught.Decipher.onUnpad (Caught.Unpad.write T std padded_result.data)
                return .ok (res.getD ⟨[], 0⟩) : U Growing.Decipher (Except DecipherError VecU8)))
              ⟨aes, ⟨16, u⟩, iv, ⟨16, ⟨tail (v.data ++ b), cap⟩⟩⟩ := by
          unfold Caught.Decipher.write
          refine (Caught.bind_ok _ _ _ _ _ p7).trans ?_
          refine (Caught.ofM_ok _ _ _ _ (withCapacity_ok T _ (by omega))).trans ?_
          exact Caught.ofM_ok _ _ _ _ hchunks
        cases hk : e.key with
        | none =>
          dsimp only
          have hkey := h.key
          rw [hk] at hkey
          obtain ⟨b0, bs, hbs⟩ : ∃ b0 bs, blocks (v.data ++ b) = b0 :: bs := by
            cases hbs : blocks (v.data ++ b) with
            | nil => rw [hbs, List.length_nil] at hbl; omega
            | cons b0 bs => exact ⟨b0, bs, rfl⟩
          have hloop : Caught.Decipher.writeLoop T std (blocks (v.data ++ b)) ⟨[], head.data.length⟩
              ⟨aes, ⟨16, u⟩, iv, ⟨16, ⟨tail (v.data ++ b), cap⟩⟩⟩ =
              (.ok (.error (.AES .NotInitialized)), ⟨aes, ⟨16, u⟩, iv, ⟨16, ⟨tail (v.data ++ b), cap⟩⟩⟩) := by
            rw [hbs, Caught.Decipher.writeLoop, Caught.self_bind]
            obtain ⟨w, h4, h5⟩ := arrayFromSlice_ok b0 (mem_blocks (v.data ++ b) b0 (by rw [hbs]; simp))
            refine (Caught.ofM_ok _ _ _ _ h4).trans ?_
            have hd : aes.decrypt w = .ok (.error .NotInitialized) := by
              unfold AES.decrypt
              rw [show aes.round_keys = none from hkey]
              rfl
            exact Caught.ofM_ok _ _ _ _ hd
          rw [step, hw0, Caught.bind_ok _ _ _ _ _ hloop, Dec.step, if_neg (by rw [← hdata]; exact hs), hk]
          refine ⟨⟨hkey, h.iv, rfl, by show tail _ = tail _; rw [hdata], ⟨?_, h32, hcap⟩, hbpow _, .inl (tail_length _), rfl, h.held,
            h.ugood, h.upow, h.ulen⟩, rfl⟩
          show (tail (v.data ++ b)).length ≤ cap
          omega
        | some key =>
          dsimp only
          have hkey := h.key
          rw [hk] at hkey
          obtain ⟨iv', l1, l2⟩ := dec_writeLoop_ok key (blocks (v.data ++ b)) (mem_blocks _)
            ⟨aes, ⟨16, u.data⟩, iv, ⟨16, tail (v.data ++ b)⟩⟩ hkey []
          obtain ⟨⟨r', j1, j2⟩, -, -, j5⟩ := decipher_loop_grow T std (blocks (v.data ++ b))
            ⟨aes, ⟨16, u⟩, iv, ⟨16, ⟨tail (v.data ++ b), cap⟩⟩⟩ _ _ ⟨[], head.data.length⟩ _ rfl rfl (by simp; omega) l1
          obtain ⟨padded, rfl⟩ : ∃ padded, r' = .ok padded := by
            cases r' with
            | error e => cases j2
            | ok padded => exact ⟨padded, rfl⟩
          have hpd : padded.data = decrypt key e.iv (e.pending ++ b) := by
            have hj := Except.ok.inj j2
            dsimp only at hj
            rw [hj, List.nil_append, hiv, hdata]
            rfl
          have hpl : padded.data.length = 16 * ((e.pending ++ b).length / 16) := by
            rw [hpd]
            exact decrypt_length _ _ _ (by rw [← hiv]; simp)
          have hw1 : Caught.Decipher.write T std b ⟨aes, ⟨16, u⟩, iv, ⟨16, v⟩⟩ =
              (Caught.Decipher.onUnpad (Caught.Unpad.write T std padded.data) >>= fun res => (return .ok (res.getD ⟨[], 0⟩) : U Growing.Decipher (Except DecipherError VecU8)))
                ⟨aes, ⟨16, u⟩, iv', ⟨16, ⟨tail (v.data ++ b), cap⟩⟩⟩ := by
            rw [hw0, Caught.bind_ok _ _ _ _ _ (Caught.dec_writeLoop_erase T std _ _ _ _ _ j1)]
          have hlast : iv'.toList = lastBlock e.iv (e.pending ++ b) := by
            rw [l2, lastBlock, hdata]
            show List.getLastD _ iv.toList = _
            rw [hiv]
          by_cases hfull : limit T < e.held.length + 16 * ((e.pending ++ b).length / 16)
          · rw [if_pos hfull]
            have hf := Caught.unpad_pushes_full T padded.data ⟨16, u⟩ h.ugood h.upow (by simp only [hheld, hpl]; exact hfull)
            have hw2 : Caught.Decipher.write T std b ⟨aes, ⟨16, u⟩, iv, ⟨16, v⟩⟩ =
                (.error .capacity, ⟨aes, ⟨16, ⟨(u.data ++ padded.data).take (limit T), limit T⟩⟩, iv', ⟨16, ⟨tail (v.data ++ b), cap⟩⟩⟩) := by
              rw [hw1]
              refine Caught.bind_err _ _ _ _ _ ?_
              rw [Caught.Decipher.onUnpad]
              have : Caught.Unpad.write T std padded.data ⟨16, u⟩ = _ := Caught.bind_err _ _ _ _ _ hf
              rw [this]
            rw [step, hw2]
            have hl : ((u.data ++ padded.data).take (limit T)).length = limit T := by
              rw [List.length_take, List.length_append, hheld, hpl]
              exact Nat.min_eq_left (Nat.le_of_lt hfull)
            refine ⟨⟨by simpa [hk] using h.key, hlast, rfl, by show tail _ = tail _; rw [hdata], ⟨?_, h32, hcap⟩, hbpow _, .inl (tail_length _), rfl, ?_,
              ⟨Nat.le_of_eq hl, ?_, ?_⟩, ⟨_, rfl⟩, .inr (.inr ?_)⟩, rfl⟩
            · show (tail (v.data ++ b)).length ≤ cap
              omega
            · show _ = _
              rw [hheld, hpd]
            · show 32 ≤ limit T
              omega
            · show limit T ≤ _
              omega
            · dsimp only
              rw [← hpd, ← hheld]
              exact hl
          · rw [if_neg hfull]
            have hdiv : 1 ≤ (e.pending ++ b).length / 16 := by rw [← hdata]; omega
            have hh : e.held = [] ∨ e.held.length = 16 := by
              rcases h.ulen with hu | hu | hu
              · exact .inl hu
              · exact .inr hu
              · omega
            have hh16 : e.held.length ≤ 16 := by
              rcases hh with hh | hh
              · rw [hh]; simp
              · omega
            rcases pushAll_spec T std padded.data u h.ugood with ⟨cap2, q1, q2, q3, q4⟩ | ⟨_, q2⟩
            rotate_left
            · rw [hheld, hpl] at q2
              omega
            obtain ⟨k, k1, k2⟩ := unpad_write T 16 (by decide) u.data padded.data
            obtain ⟨o2, m1, m2⟩ := rest_unpad T std u.data cap2 padded.data _ k u q1 q2 k1
            have m3 := Caught.unpad_write_erase T std padded.data ⟨16, u⟩ _ o2 m1
            have hP : (e.held ++ padded.data).length % 16 = 0 := by
              rw [List.length_append, hpl]
              rcases hh with hh | hh
              · rw [hh]; simp
              · omega
            have hP' : 16 ≤ (e.held ++ padded.data).length := by
              rw [List.length_append, hpl]
              omega
            rw [hheld, unpadCut_whole _ hP] at m3 k2
            have hw2 : Caught.Decipher.write T std b ⟨aes, ⟨16, u⟩, iv, ⟨16, v⟩⟩ =
                (.ok (.ok (o2.getD ⟨[], 0⟩)), ⟨aes, ⟨16, ⟨(e.held ++ padded.data).drop ((e.held ++ padded.data).length - 16), cap2⟩⟩, iv',
                  ⟨16, ⟨tail (v.data ++ b), cap⟩⟩⟩) := by
              rw [hw1]
              refine Caught.bind_ok _ _ _ _ _ ?_
              rw [Caught.Decipher.onUnpad, m3]
            have hst : e.step (.write b) = ({ e with pending := tail (e.pending ++ b), iv := lastBlock e.iv (e.pending ++ b), held := (e.held ++ padded.data).drop ((e.held ++ padded.data).length - 16) },
                .ok ((e.held ++ padded.data).take ((e.held ++ padded.data).length - 16))) := by
              rw [Dec.step, if_neg (by rw [← hdata]; exact hs), hk, hpd]
            have hdl : ((e.held ++ padded.data).drop ((e.held ++ padded.data).length - 16)).length = 16 := by rw [List.length_drop]; omega
            rw [step, hw2, hst]
            refine ⟨⟨by simpa [hk] using h.key, hlast, rfl, by show tail _ = tail _; rw [hdata], ⟨?_, h32, hcap⟩, hbpow _, .inl (tail_length _), rfl, rfl,
              ⟨?_, q2.room, q2.max⟩, ?_, .inr (.inl hdl)⟩, ?_⟩
            · show (tail (v.data ++ b)).length ≤ cap
              omega
            · have := q2.room
              dsimp only at this ⊢
              omega
            · obtain ⟨k, hk⟩ := pushAll_pow T padded.data u _ h.ugood h.upow q1
              exact ⟨k, hk⟩
            · show some (Except.ok (o2.getD ⟨[], 0⟩).data) = _
              rw [← k2, ← m2]
              cases o2 <;> rfl
  | flush =>
    rw [Dec.stepLimited]
    by_cases hl : 16 < e.held.length
    · rw [if_pos hl]
      have hs : Caught.Decipher.flush T ⟨aes, ⟨16, u⟩, iv, ⟨16, v⟩⟩ = (.ok (.error (.PKCS7 .UnfinishedBlock)), ⟨aes, ⟨16, u⟩, iv, ⟨16, v⟩⟩) := by
        have hu : Growing.Unpad.flush T ⟨16, u⟩ = .ok (⟨16, u⟩, .error .UnfinishedBlock) := by
          unfold Growing.Unpad.flush
          rw [if_pos (by show u.data.length ≠ 16; rw [hheld]; omega)]
          rfl
        have hc : Caught.Unpad.flush T ⟨16, u⟩ = (.ok (.error .UnfinishedBlock), ⟨16, u⟩) := by
          unfold Caught.Unpad.flush
          rw [Caught.self_bind, Caught.ofM_ok _ _ _ _ hu]
          rfl
        unfold Caught.Decipher.flush
        refine (Caught.bind_ok (σ := Growing.Decipher) _ _ ⟨aes, ⟨16, u⟩, iv, ⟨16, v⟩⟩ ⟨aes, ⟨16, u⟩, iv, ⟨16, v⟩⟩ (.error .UnfinishedBlock) ?_).trans rfl
        rw [Caught.Decipher.onUnpad, hc]
      rw [step, hs]
      exact ⟨h, rfl⟩
    · rw [if_neg hl]
      have hh : e.held = [] ∨ e.held.length = 16 := by
        rcases h.ulen with hu | hu | hu
        · exact .inl hu
        · exact .inr hu
        · omega
      -- the model without capacities, with an empty buffer
      obtain ⟨d0', r0, s1, s2, s3⟩ := dstep_spec T ⟨aes, ⟨16, u.data⟩, iv, ⟨16, []⟩⟩ { e with pending := [] }
        ⟨h.key, h.iv, rfl, by simp, by rw [hheld], hh⟩ .flush
      rw [AesCbc.dstep, AesCbc.Decipher.flush] at s1
      cases e1 : Pkcs7.Unpad.flush T ⟨16, u.data⟩ with
      | error er => rw [e1] at s1; cases s1
      | ok q =>
        obtain ⟨p, r1⟩ := q
        obtain ⟨r', i1, i2⟩ := unpad_flush_grow T u h.ugood p r1 e1
        rw [e1, ok_bind] at s1
        have hd : d0' = ⟨aes, p, iv, ⟨16, []⟩⟩ ∧ r0 = r1.mapError DecipherError.PKCS7 := by
          cases r1 <;> (cases s1; exact ⟨rfl, rfl⟩)
        obtain ⟨rfl, rfl⟩ := hd
        have hc : Caught.Unpad.flush T ⟨16, u⟩ = (.ok r', ⟨16, ⟨p.storage, u.cap⟩⟩) := by
          unfold Caught.Unpad.flush
          rw [Caught.self_bind, Caught.ofM_ok _ _ _ _ i1]
          rfl
        have hs : Caught.Decipher.flush T ⟨aes, ⟨16, u⟩, iv, ⟨16, v⟩⟩ = (.ok (r'.mapError .PKCS7), ⟨aes, ⟨16, ⟨p.storage, u.cap⟩⟩, iv, ⟨16, v⟩⟩) := by
          unfold Caught.Decipher.flush
          refine (Caught.bind_ok (σ := Growing.Decipher) _ _ ⟨aes, ⟨16, u⟩, iv, ⟨16, v⟩⟩ ⟨aes, ⟨16, ⟨p.storage, u.cap⟩⟩, iv, ⟨16, v⟩⟩ r' ?_).trans ?_
          · rw [Caught.Decipher.onUnpad, hc]
          · cases r' <;> rfl
        have hfl : (Dec.step { e with pending := [] } .flush) = ({ (e.step .flush).1 with pending := [] }, (e.step .flush).2) := by
          rw [Dec.step, Dec.step]
          dsimp only
          split
          · rfl
          · split <;> rfl
        have hst : (e.step .flush).1 = { e with held := (e.step .flush).1.held } := by
          rw [Dec.step]
          split
          · rfl
          · split <;> rfl
        rw [hfl] at s2 s3
        have hps : p.storage = (e.step .flush).1.held := by
          have := s2.2.2.2.2.1
          dsimp only at this
          rw [this]
        have hlen : (e.step .flush).1.held = [] ∨ (e.step .flush).1.held.length = 16 := s2.2.2.2.2.2
        rw [step, hs, hst]
        have hroom := h.ugood.room
        refine ⟨⟨h.key, h.iv, rfl, h.pending, h.bgood, h.bpow, h.blen, rfl, hps, ⟨?_, h.ugood.room, h.ugood.max⟩, h.upow, ?_⟩, ?_⟩
        · show p.storage.length ≤ u.cap
          rw [hps]
          change 32 ≤ u.cap at hroom
          rcases hlen with hlen | hlen
          · rw [hlen]; simp
          · omega
        · rcases hlen with hlen | hlen
          · exact .inl hlen
          · exact .inr (.inl hlen)
        · show some (((r'.mapError DecipherError.PKCS7).map (·.data)).mapError errD) = _
          rw [← s3, ← i2]
          cases r' <;> rfl

/-- **C131.** Whatever calls are made on a `Decipher`, and however often they panic and the panic is caught, the answers and panics are those of the
decryptor with two buffers of a quarter of the address space. -/
theorem C131_history (T : Target) (iv : Vector U8 16) (calls : List Call) :
    ∃ answers, session T iv calls = .ok answers ∧ answers.map shown = Dec.runLimited (2 ^ (T.bits - 2)) ⟨none, iv.toList, [], []⟩ calls := by
  obtain ⟨d, h1, ⟨d0, h2, h3⟩, h4, h5⟩ := dnew_inv T iv
  refine ⟨run T d calls, by rw [session, h1]; rfl, ?_⟩
  have hinv : Inv T d ⟨none, iv.toList, [], []⟩ := by
    refine ⟨by rw [h2.aes]; exact h3.1, by rw [h2.iv]; exact h3.2.1, h2.bsize, ?_, h2.bgood, ⟨5, h4⟩, .inl (by simp), h2.usize, ?_, h2.ugood, ⟨5, h5⟩, .inl rfl⟩
    · have := h2.buffer
      rw [h3.2.2.1] at this
      injection this with _ h; exact h.symm
    · have := h2.unpad
      rw [h3.2.2.2.2.1] at this
      injection this with _ h; exact h.symm
  clear h1 h2 h3 h4 h5
  generalize (⟨none, iv.toList, [], []⟩ : Dec) = e at hinv
  induction calls generalizing d e with
  | nil => rfl
  | cons x xs ih =>
    obtain ⟨h1, h2⟩ := step_spec T d e hinv x
    rw [run, List.map_cons, Dec.runLimited, h2, ih _ _ h1]

/-- **C131.** A `write` that was too large, and whose panic was caught, has taken the first quarter of the address space of it. With an empty `write` after it, everything
goes on as if these octets had been all: the rest is missing, without an error. -/
theorem C131_cut (T : Target) (iv : Vector U8 16) (key : List U8) (b : List U8) (hb : 2 ^ (T.bits - 2) < b.length) (rest : List Call) :
    ∃ answers first later, session T iv (.init key :: .write b :: .write [] :: rest) = .ok answers ∧
      answers.map shown = first :: none :: later ∧
      ∃ answers', session T iv (.init key :: .write (b.take (2 ^ (T.bits - 2))) :: rest) = .ok answers' ∧ answers'.map shown = first :: later := by
  obtain ⟨answers, h1, h2⟩ := C131_history T iv (.init key :: .write b :: .write [] :: rest)
  obtain ⟨answers', h3, h4⟩ := C131_history T iv (.init key :: .write (b.take (2 ^ (T.bits - 2))) :: rest)
  obtain ⟨k, hi⟩ : ∃ k, (Dec.step ⟨none, iv.toList, [], []⟩ (.init key)).1 = ⟨k, iv.toList, [], []⟩ := by
    rw [Dec.step]
    split <;> exact ⟨_, rfl⟩
  refine ⟨answers, _, _, h1, ?_, answers', h3, h4⟩
  have hl : (b.take (2 ^ (T.bits - 2))).length = 2 ^ (T.bits - 2) := by
    rw [List.length_take]; exact Nat.min_eq_left (Nat.le_of_lt hb)
  have e1 : Dec.stepLimited (2 ^ (T.bits - 2)) ⟨k, iv.toList, [], []⟩ (.write b) = (⟨k, iv.toList, b.take (2 ^ (T.bits - 2)), []⟩, none) := by
    rw [Dec.stepLimited, if_pos (by simpa using hb)]
    rfl
  have e2 : Dec.stepLimited (2 ^ (T.bits - 2)) ⟨k, iv.toList, b.take (2 ^ (T.bits - 2)), []⟩ (.write []) =
      Dec.stepLimited (2 ^ (T.bits - 2)) ⟨k, iv.toList, [], []⟩ (.write (b.take (2 ^ (T.bits - 2)))) := by
    rw [Dec.stepLimited, Dec.stepLimited, if_neg (by simp; omega), if_neg (by simp; omega)]
    simp only [Dec.step, List.append_nil, List.nil_append]
  rw [h2, Dec.runLimited, Dec.stepLimited, hi, Dec.runLimited, e1]
  dsimp only
  rw [Dec.runLimited, e2, Dec.runLimited]

/-- The decryptor with its second buffer full never gives out a byte again. -/
theorem dead (limit : Nat) (hlim : 1024 ≤ limit) (d : Dec) (hd : d.held.length = limit) (c : Call) :
    (d.stepLimited limit c).1.held.length = limit ∧
    ((d.stepLimited limit c).2 = none ∨ (d.stepLimited limit c).2 = some (.ok []) ∨ ∃ e, (d.stepLimited limit c).2 = some (.error e)) ∧
    (c = .flush → (d.stepLimited limit c).2 = some (.error .unfinishedBlock)) := by
  cases c with
  | init key =>
    rw [Dec.stepLimited, Dec.step]
    split
    · exact ⟨hd, .inr (.inl rfl), nofun⟩
    · exact ⟨hd, .inr (.inr ⟨_, rfl⟩), nofun⟩
  | write b =>
    rw [Dec.stepLimited]
    split
    · exact ⟨hd, .inl rfl, nofun⟩
    · cases hk : d.key with
      | none =>
        dsimp only
        rw [Dec.step]
        split
        · exact ⟨hd, .inr (.inl rfl), nofun⟩
        · rw [hk]
          exact ⟨hd, .inr (.inr ⟨_, rfl⟩), nofun⟩
      | some key =>
        dsimp only
        split
        · refine ⟨?_, .inl rfl, nofun⟩
          dsimp only
          rw [List.length_take, List.length_append]
          omega
        · rw [Dec.step, if_pos (by omega)]
          exact ⟨hd, .inr (.inl rfl), nofun⟩
  | flush =>
    rw [Dec.stepLimited, if_pos (by omega)]
    exact ⟨hd, .inr (.inr ⟨_, rfl⟩), fun _ => rfl⟩

/-- **C131.** A `Decipher` that holds back a block and is then given as much ciphertext as the first buffer takes panics in the second, and what it has held back is
lost: whatever is called after that, it never gives out a byte again, and each `flush` fails with `UnfinishedBlock`. -/
theorem C131_dead (T : Target) (iv : Vector U8 16) (key : List U8) (hk : key.length = 16 ∨ key.length = 24 ∨ key.length = 32) (b1 b2 : List U8)
    (h1 : b1.length = 16) (h2 : b2.length = 2 ^ (T.bits - 2)) (rest : List Call) :
    ∃ answers later, session T iv (.init key :: .write b1 :: .write b2 :: rest) = .ok answers ∧
      answers.map shown = some (.ok []) :: some (.ok []) :: none :: later ∧ later.length = rest.length ∧
      ∀ p ∈ rest.zip later, (p.2 = none ∨ p.2 = some (.ok []) ∨ ∃ e, p.2 = some (.error e)) ∧ (p.1 = .flush → p.2 = some (.error .unfinishedBlock)) := by
  obtain ⟨answers, h3, h4⟩ := C131_history T iv (.init key :: .write b1 :: .write b2 :: rest)
  have hlim : 1024 ≤ 2 ^ (T.bits - 2) := limit_large T
  have h16 : 16 * (2 ^ (T.bits - 2) / 16) = 2 ^ (T.bits - 2) := by
    rcases T with ⟨_ | _, _ | _⟩ <;> decide
  have hi : Dec.step ⟨none, iv.toList, [], []⟩ (.init key) = (⟨some key, iv.toList, [], []⟩, .ok []) := by rw [Dec.step, if_pos (by exact hk)]
  have hdl : (decrypt key iv.toList b1).length = 16 := by rw [decrypt_length _ _ _ (by simp), h1]
  have ht : tail b1 = [] := by rw [tail, h1]; exact List.drop_of_length_le (by omega)
  have e1 : Dec.stepLimited (2 ^ (T.bits - 2)) ⟨some key, iv.toList, [], []⟩ (.write b1) =
      (⟨some key, lastBlock iv.toList b1, [], decrypt key iv.toList b1⟩, some (.ok [])) := by
    rw [Dec.stepLimited, if_neg (by simp; omega)]
    dsimp only
    rw [if_neg (by simp; omega), Dec.step, if_neg (by simp; omega)]
    dsimp only
    rw [List.nil_append, List.nil_append, hdl, ht]
    rfl
  have e2 : Dec.stepLimited (2 ^ (T.bits - 2)) ⟨some key, lastBlock iv.toList b1, [], decrypt key iv.toList b1⟩ (.write b2) =
      (⟨some key, lastBlock (lastBlock iv.toList b1) b2, tail b2,
        (decrypt key iv.toList b1 ++ decrypt key (lastBlock iv.toList b1) b2).take (2 ^ (T.bits - 2))⟩, none) := by
    rw [Dec.stepLimited, if_neg (by simp; omega)]
    dsimp only
    rw [List.nil_append, if_pos (by rw [hdl, h2, h16]; omega)]
  have hiv : (lastBlock iv.toList b1).length = 16 := by
    rw [lastBlock, List.getLastD_eq_getLast?]
    cases hb : (blocks b1).getLast? with
    | none => simp
    | some x => exact mem_blocks b1 x (List.mem_of_getLast? hb)
  have hl : ((decrypt key iv.toList b1 ++ decrypt key (lastBlock iv.toList b1) b2).take (2 ^ (T.bits - 2))).length = 2 ^ (T.bits - 2) := by
    rw [List.length_take, List.length_append, hdl, decrypt_length _ _ _ hiv, h2, h16]
    omega
  refine ⟨answers, _, h3, by rw [h4, Dec.runLimited, Dec.stepLimited, hi, Dec.runLimited, e1]; dsimp only; rw [Dec.runLimited, e2], ?_⟩
  clear h3 h4
  dsimp only
  generalize hgen : (⟨some key, lastBlock (lastBlock iv.toList b1) b2, tail b2,
        (decrypt key iv.toList b1 ++ decrypt key (lastBlock iv.toList b1) b2).take (2 ^ (T.bits - 2))⟩ : Dec) = d
  have hd : d.held.length = 2 ^ (T.bits - 2) := by rw [← hgen]; exact hl
  clear hgen hl e1 e2
  induction rest generalizing d with
  | nil => exact ⟨rfl, by simp⟩
  | cons c cs ih =>
    obtain ⟨g1, g2, g3⟩ := dead _ hlim d hd c
    obtain ⟨i1, i2⟩ := ih _ g1
    rw [Dec.runLimited]
    refine ⟨by rw [List.length_cons, i1, List.length_cons], fun p hp => ?_⟩
    rw [List.zip_cons_cons, List.mem_cons] at hp
    rcases hp with rfl | hp
    · exact ⟨g2, g3⟩
    · exact i2 p hp

/-- On a 32-bit target, a block and a gigabyte. -/
example (iv : Vector U8 16) (b : List U8) (hb : b.length = 2 ^ 30) :
    ∃ answers later, session ⟨.w32, true⟩ iv [.init (List.replicate 16 1), .write (List.replicate 16 2), .write b, .init (List.replicate 32 3), .flush] = .ok answers ∧
      answers.map shown = some (.ok []) :: some (.ok []) :: none :: later ∧ later.length = 2 := by
  obtain ⟨answers, later, h1, h2, h3, -⟩ :=
    C131_dead ⟨.w32, true⟩ iv (List.replicate 16 1) (.inl (by simp)) (List.replicate 16 2) b (by simp) (by rw [hb]; decide) [.init (List.replicate 32 3), .flush]
  exact ⟨answers, later, h1, h2, h3⟩

/-- On a 32-bit target, a gigabyte and one byte. -/
example (iv : Vector U8 16) (b : List U8) (hb : b.length = 2 ^ 30 + 1) :
    ∃ answers first later, session ⟨.w32, true⟩ iv [.init (List.replicate 16 1), .write b, .write [], .flush] = .ok answers ∧
      answers.map shown = first :: none :: later ∧
      ∃ answers', session ⟨.w32, true⟩ iv [.init (List.replicate 16 1), .write (b.take (2 ^ 30)), .flush] = .ok answers' ∧ answers'.map shown = first :: later :=
  C131_cut ⟨.w32, true⟩ iv (List.replicate 16 1) b (by rw [hb]; decide) [.flush]

end Verif.Props.CaughtDecipher
