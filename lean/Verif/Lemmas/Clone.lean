import Verif.Spec.Split
import Verif.Lemmas.Conf
import Verif.Lemmas.Window
/- Layers that agree on what receiving (or sending) user messages depends on. -/
namespace Pkstl
open Spec

section
variable {env : Env} {st : Start} {a b s c : Layer}

/-- Agreement on the receiving side. -/
structure SameRx (a b : Layer) : Prop where
  secret : a.secret = b.secret
  next : a.nextNonceExpected = b.nextNonceExpected
  orphans : a.orphanNonces = b.orphanNonces
  status : a.status = b.status
  stack : a.tmpStack = b.tmpStack

theorem SameRx.refl (s : Layer) : SameRx s s := ⟨rfl, rfl, rfl, rfl, rfl⟩

theorem SameRx.symm (h : SameRx a b) : SameRx b a :=
  ⟨h.secret.symm, h.next.symm, h.orphans.symm, h.status.symm, h.stack.symm⟩

theorem updateNonces_same (h : SameRx a b) (n : Nat) :
    (a.updateNonces env n).2 = (b.updateNonces env n).2 ∧
    SameRx (a.updateNonces env n).1 (b.updateNonces env n).1 := by
  obtain ⟨h1, h2, h3, h4, h5⟩ := h
  cases a; cases b
  dsimp only at h1 h2 h3 h4 h5
  subst h1 h2 h3 h4 h5
  unfold Layer.updateNonces
  dsimp only
  split
  · split
    · exact ⟨rfl, rfl, rfl, rfl, rfl, rfl⟩
    · exact ⟨rfl, rfl, rfl, rfl, rfl, rfl⟩
  · split
    · exact ⟨rfl, rfl, rfl, rfl, rfl, rfl⟩
    · exact ⟨rfl, rfl, rfl, rfl, rfl, rfl⟩

theorem readUser_same (h : SameRx a b) (d : DecryptedIncomingData) (n : Nat) :
    (a.readUser env d n).2 = (b.readUser env d n).2 ∧
    SameRx (a.readUser env d n).1 (b.readUser env d n).1 := by
  obtain ⟨h1, h2, h3, h4, h5⟩ := h
  rcases a with ⟨a1, a2, a3, a4, a5, a6, a7, a8, a9, a10, a11, a12, a13⟩
  rcases b with ⟨b1, b2, b3, b4, b5, b6, b7, b8, b9, b10, b11, b12, b13⟩
  dsimp only at h1 h2 h3 h4 h5
  subst h1 h2 h3 h4 h5
  unfold Layer.readUser
  dsimp only
  split
  · exact ⟨rfl, rfl, rfl, rfl, rfl, rfl⟩
  rcases a12.applyAction (.receive .userMsg) with ⟨st', (_ | ⟨_⟩) | e | p⟩
  · dsimp only
    have hu := updateNonces_same (env := env) (a := ⟨a1, a2, a3, a4, a5, a6, a7, a8, a9, a10, a11, st', a13⟩)
      (b := ⟨b1, b2, b3, a4, b5, b6, a7, b8, a9, b10, b11, st', a13⟩) ⟨rfl, rfl, rfl, rfl, rfl⟩ n
    split
    · split
      · exact ⟨rfl, rfl, rfl, rfl, rfl, rfl⟩
      · revert hu
        generalize Layer.updateNonces env ⟨a1, a2, a3, a4, a5, a6, a7, a8, a9, a10, a11, st', a13⟩ n = x
        generalize Layer.updateNonces env ⟨b1, b2, b3, a4, b5, b6, a7, b8, a9, b10, b11, st', a13⟩ n = y
        rcases x with ⟨a', ra⟩
        rcases y with ⟨b', rb⟩
        rintro ⟨rfl, hu⟩
        rcases ra with _ | _ | _ <;> exact ⟨rfl, hu⟩
    · exact ⟨rfl, rfl, rfl, rfl, rfl, rfl⟩
  · exact ⟨rfl, rfl, rfl, rfl, rfl, rfl⟩
  · exact ⟨rfl, rfl, rfl, rfl, rfl, rfl⟩
  · exact ⟨rfl, rfl, rfl, rfl, rfl, rfl⟩

theorem read_same (h : SameRx a b) {inc : Bytes} (hm : inc.take 4 ≠ [0xE2, 0xC2, 0xE2, 0xD2]) :
    (a.read env inc).2 = (b.read env inc).2 ∧ SameRx (a.read env inc).1 (b.read env inc).1 := by
  unfold Layer.read Layer.readInner
  rw [h.secret]
  rcases hr : readerRead env b.secret inc true with d | e | p
  · rcases readerRead_inv hr with ⟨h', -⟩ | ⟨-, k, -, -, hp⟩
    · exact absurd h' hm
    · obtain ⟨lb, th, hl, -, -, -, -, -, -, hc⟩ := parseClear_inv hp
      have := hc rfl
      dsimp only
      cases hd : d.msgTypeHeaders with
      | connect _ _ _ => rw [hd] at this; simp [MsgTypeHeaders.mustBeEncrypted] at this
      | ack _ => rw [hd] at this; simp [MsgTypeHeaders.mustBeEncrypted] at this
      | userMsg n => exact readUser_same h d n
  · exact ⟨rfl, rfl, h.next, h.orphans, rfl, h.stack⟩
  · exact ⟨rfl, h⟩

theorem drainLoop_same (h : SameRx a b) (bs : List Bytes) (ms : List Message) (hb : Stackable env bs) :
    (a.drainLoop env bs ms).2 = (b.drainLoop env bs ms).2 ∧
    SameRx (a.drainLoop env bs ms).1 (b.drainLoop env bs ms).1 := by
  induction bs generalizing a b ms with
  | nil => exact ⟨rfl, h⟩
  | cons x bs ih =>
    obtain ⟨n, d, hp, hh⟩ := hb x (by simp)
    have hb2 : Stackable env bs := fun b hm => hb b (by simp [hm])
    have hu := readUser_same (env := env) h d n
    rw [Layer.drainLoop, Layer.drainLoop, readInner_stacked a hp hh, readInner_stacked b hp hh]
    rcases ha : a.readUser env d n with ⟨a', ra⟩
    rcases hb : b.readUser env d n with ⟨b', rb⟩
    rw [ha, hb] at hu
    dsimp only at hu
    obtain ⟨rfl, hu⟩ := hu
    rcases ra with (_ | _) | _ | _
    · exact ih hu _ hb2
    · exact ih hu _ hb2
    · exact ⟨rfl, hu⟩
    · exact ⟨rfl, hu⟩

theorem drain_same (h : SameRx a b) (hs : Stackable env b.tmpStack) :
    (a.drainTmpStack env).2 = (b.drainTmpStack env).2 ∧
    SameRx (a.drainTmpStack env).1 (b.drainTmpStack env).1 := by
  unfold Layer.drainTmpStack
  rw [h.stack]
  exact drainLoop_same (a := { a with tmpStack := [] }) (b := { b with tmpStack := [] })
    ⟨h.secret, h.next, h.orphans, h.status, rfl⟩ _ _ hs

/-- Agreement on the sending side. -/
structure SameTx (a b : Layer) : Prop where
  secret : a.secret = b.secret
  sent : a.nextNonceSent = b.nextNonceSent
  status : a.status = b.status

theorem write_same (h : SameTx a b) (d : Bytes) (w : BufW) :
    (a.writeMessage env d w).2 = (b.writeMessage env d w).2 ∧
    SameTx (a.writeMessage env d w).1 (b.writeMessage env d w).1 := by
  obtain ⟨h1, h2, h3⟩ := h
  rcases writeMessage_cases env a d w with ⟨hs, he⟩ | ⟨l, r, hs, he⟩ | ⟨hs, hk, he⟩ |
    ⟨hs, k, hk, ⟨w', e, hen, he⟩ | ⟨w', hen, ⟨n, hn, he⟩ | ⟨hn, he⟩⟩⟩ <;>
  rcases writeMessage_cases env b d w with ⟨hs', he'⟩ | ⟨l', r', hs', he'⟩ | ⟨hs', hk', he'⟩ |
    ⟨hs', k', hk', ⟨w'', e', hen', he'⟩ | ⟨w'', hen', ⟨n', hn', he'⟩ | ⟨hn', he'⟩⟩⟩ <;>
  (rw [h3, hs'] at hs; try (cases hs)) <;> (try rw [h1, hk'] at hk; try cases hk) <;>
  (try rw [h2, hen'] at hen; try cases hen) <;> (try rw [h2, hn'] at hn; try cases hn) <;>
  rw [he, he'] <;> first | exact ⟨rfl, h1, h2, rfl⟩ | exact ⟨rfl, h1, rfl, h3⟩ | exact ⟨rfl, h1, h2, h3⟩

/-- A clone agrees with its original. -/
theorem tryClone_iff : s.tryClone.2 = .ok c ↔
    s.status = .success ∧ c = { s with ackMsgRecvTooEarly := none, cloned := true, ephemeralKp := none, peerEpk := none, peerSigPubkey := none } := by
  unfold Layer.tryClone
  split
  · rename_i hs
    rw [hs]
    simp only [true_and, Res.ok.injEq]
    exact eq_comm
  · rename_i hs; simp [hs]

end
end Pkstl
