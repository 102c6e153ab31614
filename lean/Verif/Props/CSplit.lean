import Verif.Spec.CSplit
import Verif.Props.Complete
/- C34 for the complete mode: the original writes, its clone reads. -/
namespace Pkstl
open Spec

variable {M : Type} {env : Env} {f : Features}

/-- Reading on a negotiated layer: nothing but the minimal layer's `read` happens to the state. -/
theorem readBin_negotiated {st : Start} {s : SecureLayer} (hw : Wf env st s.minimal) (hs : s.minimal.status = .success)
    (inc : Bytes) : (s.readBin env inc).1 = { s with minimal := (s.minimal.read env inc).1 } := by
  have hm := fun m => read_success_msg (b := inc) (m := m) hw hs
  unfold SecureLayer.readBin
  rcases hb : s.minimal.read env inc with ⟨m', r⟩
  rw [hb] at hm
  rcases r with (_ | m) | e | p
  · rfl
  · obtain ⟨d, rfl⟩ := hm _ rfl
    dsimp only
    cases SecureLayer.uncompressOpt env.cr d <;> rfl
  · rfl
  · rfl

theorem readSer_same {c : Codec M} {a b : SecureLayer} {inc : Bytes} (h : (a.readBin env inc).2 = (b.readBin env inc).2) :
    (a.readSer env f c inc).2 = (b.readSer env f c inc).2 := by
  unfold SecureLayer.readSer
  rcases ha : a.readBin env inc with ⟨a', r⟩
  rcases hb : b.readBin env inc with ⟨b', r'⟩
  rw [ha, hb] at h
  cases h
  rcases r with _ | _ | _ <;> rfl

/-- Single layer, writing original, reading clone. -/
structure CSplit (s w r : SecureLayer) : Prop where
  rx : SameRx r.minimal s.minimal
  tx : SameTx w.minimal s.minimal
  config : w.minimal.config = s.minimal.config

theorem writeMessage_config (s : Layer) (d : Bytes) (w : BufW) : (s.writeMessage env d w).1.config = s.config := by
  rcases writeMessage_cases env s d w with ⟨-, he⟩ | ⟨_, _, -, he⟩ | ⟨-, -, he⟩ |
    ⟨-, k, hk, ⟨w', e, -, he⟩ | ⟨w', -, ⟨n, -, he⟩ | ⟨-, he⟩⟩⟩ <;> rw [he]

theorem CSplit.write {s w r : SecureLayer} (sp : CSplit s w r) (p : Bytes) (bw : BufW) :
    (w.writeBinRaw env p bw).2 = (s.writeBinRaw env p bw).2 ∧
    ((s.writeBinRaw env p bw).1.minimal.status = .success →
      CSplit (s.writeBinRaw env p bw).1 (w.writeBinRaw env p bw).1 r) := by
  obtain ⟨e1, e2⟩ := write_same (env := env) sp.tx p bw
  refine ⟨e1, fun hn => ⟨?_, e2, ?_⟩⟩
  · obtain ⟨h1, h2, h3, h4, h5⟩ := sp.rx
    simp only [SecureLayer.writeBinRaw] at hn ⊢
    rcases writeMessage_cases env s.minimal p bw with ⟨-, he⟩ | ⟨_, _, -, he⟩ | ⟨-, -, he⟩ |
      ⟨-, k, hk, ⟨w', e, -, he⟩ | ⟨w', -, ⟨n, -, he⟩ | ⟨-, he⟩⟩⟩ <;> rw [he] at hn ⊢ <;>
      first
      | exact ⟨h1, h2, h3, h4, h5⟩
      | (simp at hn)
  · simp only [SecureLayer.writeBinRaw]
    rw [writeMessage_config, writeMessage_config]
    exact sp.config

theorem CSplit.read {st : Start} {s w r : SecureLayer} (hw : Wf env st s.minimal) (hwr : ∃ st, Wf env st r.minimal)
    (sp : CSplit s w r) (hs : s.minimal.status = .success) {inc : Bytes}
    (hi : inc.take 4 ≠ [0xE2, 0xC2, 0xE2, 0xD2]) :
    (r.readBin env inc).2 = (s.readBin env inc).2 ∧
    ((s.readBin env inc).1.minimal.status = .success →
      CSplit (s.readBin env inc).1 w (r.readBin env inc).1) := by
  obtain ⟨st', hwr⟩ := hwr
  obtain ⟨e1, e2⟩ := read_same (env := env) sp.rx hi
  refine ⟨readBin_same hw hs e1, ?_⟩
  rw [readBin_negotiated hw hs, readBin_negotiated hwr (sp.rx.status.trans hs)]
  intro hn
  have hf := readFrame env s.minimal inc true
  refine ⟨e2, ⟨?_, by rw [sp.tx.sent]; exact hf.sent.symm, by rw [sp.tx.status, hs]; exact hn.symm⟩,
    by rw [sp.config]; exact hf.config.symm⟩
  rw [sp.tx.secret]
  rcases hf.secret with h' | ⟨⟨loc, h'⟩, -⟩
  · exact h'.symm
  · rw [hs] at h'; simp at h'

/-- While the single layer has not failed, splitting makes no difference. -/
theorem csplit_events {st st' : CStart} {h h' : List (CEvent M)} {s w r : SecureLayer} (hr : CRun env f st h s)
    (hr' : CRun env f st' h' r) (sp : CSplit s w r) (ops : List (COp M)) (ho : ∀ x ∈ ops, x.traffic = true)
    (hok : ∀ k < ops.length, (crunAll env f s (ops.take k)).1.minimal.status = .success) :
    crunSplit env f w r ops = (crunAll env f s ops).2 := by
  induction ops generalizing h h' s w r with
  | nil => rfl
  | cons op ops ih =>
    have hs : s.minimal.status = .success := hok 0 (by simp)
    have hok' : ∀ k < ops.length, (crunAll env f (cstep env f s op).1 (ops.take k)).1.minimal.status = .success := by
      intro k hk
      have := hok (k + 1) (by simpa using hk)
      simpa [crunAll] using this
    have hnext : ops ≠ [] → (cstep env f s op).1.minimal.status = .success := fun hne =>
      hok' 0 (List.length_pos_iff.mpr hne)
    have hop := ho op (by simp)
    have ho' : ∀ x ∈ ops, x.traffic = true := fun x hx => ho x (by simp [hx])
    have wr : ∀ p bw, (w.writeBinRaw env p bw).2 = (s.writeBinRaw env p bw).2 ∧
        ((s.writeBinRaw env p bw).1.minimal.status = .success →
          CSplit (s.writeBinRaw env p bw).1 (w.writeBinRaw env p bw).1 r) := fun p bw => sp.write p bw
    have rd := fun inc => sp.read hr.wf ⟨_, hr'.wf⟩ hs (inc := inc)
    by_cases hw : op.writes = true
    · have key : (cstep env f w op).2 = (cstep env f s op).2 ∧
          ((cstep env f s op).1.minimal.status = .success → CSplit (cstep env f s op).1 (cstep env f w op).1 r) := by
        cases op with
        | writeBin d bw =>
          simp only [cstep, SecureLayer.writeBin, SecureLayer.compress, sp.config]
          obtain ⟨e1, e2⟩ := wr (env.cr.deflate (if d.length < s.minimal.config.compressionMinSize then 0
            else s.minimal.config.compression) d) bw
          exact ⟨by rw [e1], e2⟩
        | writeSer c d bw =>
          simp only [cstep, SecureLayer.writeSer, SecureLayer.compress, sp.config]
          rcases serialize c d s.minimal.config.messageFormat with b | e | p
          · obtain ⟨e1, e2⟩ := wr (env.cr.deflate (if b.length < s.minimal.config.compressionMinSize then 0
              else s.minimal.config.compression) b) bw
            exact ⟨by rw [e1], e2⟩
          · exact ⟨rfl, fun _ => sp⟩
          · exact ⟨rfl, fun _ => sp⟩
        | _ => simp [COp.writes] at hw
      simp only [crunSplit, if_pos hw, crunAll]
      rw [key.1]
      congr 1
      rcases ops with _ | ⟨o, ops⟩
      · rfl
      · exact ih (hr.call op) hr' (key.2 (hnext (by simp))) ho' hok'
    · have key : (cstep env f r op).2 = (cstep env f s op).2 ∧
          ((cstep env f s op).1.minimal.status = .success → CSplit (cstep env f s op).1 w (cstep env f r op).1) := by
        cases op with
        | readBin b =>
          obtain ⟨e1, e2⟩ := rd b (by simpa [COp.traffic] using hop)
          simp only [cstep]
          exact ⟨by rw [e1], e2⟩
        | readSer c b =>
          obtain ⟨e1, e2⟩ := rd b (by simpa [COp.traffic] using hop)
          simp only [cstep]
          rw [readSer_same e1, readSer_fst, readSer_fst]
          exact ⟨rfl, e2⟩
        | writeBin | writeSer => exact absurd rfl hw
        | _ => simp [COp.traffic] at hop
      simp only [crunSplit, if_neg hw, crunAll]
      rw [key.1]
      congr 1
      rcases ops with _ | ⟨o, ops⟩
      · rfl
      · exact ih (hr.call op) (hr'.call op) (key.2 (hnext (by simp))) ho' hok'

/-- **C34.** Complete mode: let the original do all writing (`write_bin`, `write`) and its clone all reading (`read_bin`,
`read`).  For every interleaving `ops` of such calls everything observable (results, messages handed over, bytes written)
is what a single layer would show, up to and including the first call after which the single layer is failed. -/
theorem C34_complete {st : CStart} {h : List (CEvent M)} {s c : SecureLayer} (hr : CRun env f st h s)
    (hc : s.tryClone.2 = .ok c) (ops : List (COp M)) (ho : ∀ x ∈ ops, x.traffic = true)
    (hok : ∀ k < ops.length, (crunAll env f s (ops.take k)).1.minimal.status = .success) :
    crunSplit env f s.tryClone.1 c ops = (crunAll env f s ops).2 := by
  have hr' := hr.cloned hc
  obtain ⟨m, hm, rfl⟩ := ctryClone_ok hc
  obtain ⟨hs, he⟩ := tryClone_iff.mp hm
  have h1 : s.tryClone.1 = { s with minimal := { s.minimal with cloned := true } } := by
    unfold SecureLayer.tryClone Layer.tryClone
    rw [if_pos hs]
  rw [h1]
  exact csplit_events hr hr' (w := { s with minimal := { s.minimal with cloned := true } }) ⟨by rw [he]; exact ⟨rfl, rfl, rfl, rfl, rfl⟩, ⟨rfl, rfl, rfl⟩, rfl⟩ ops ho hok

/-- Toy party B writes and reads alternately; the last input is junk that fails the layer. -/
example (oc : Bool) : ∃ (h : List (CEvent Unit)) (c : SecureLayer), CRun (Toy.env oc) ⟨true, true, true⟩ Toy.cstB h (Toy.csB Toy.b4) ∧
    (Toy.csB Toy.b4).tryClone.2 = .ok c ∧
    (∀ x ∈ ([.writeBin [1] Toy.sink, .readBin (cipherOf Toy.cr Toy.key 3 [0, 5]), .writeBin [2] Toy.sink,
      .readBin (List.replicate 16 7)] : List (COp Unit)), x.traffic = true) ∧
    (∀ k < 4, (crunAll (Toy.env oc) ⟨true, true, true⟩ (Toy.csB Toy.b4) ([.writeBin [1] Toy.sink,
      .readBin (cipherOf Toy.cr Toy.key 3 [0, 5]), .writeBin [2] Toy.sink,
      .readBin (List.replicate 16 7)].take k : List (COp Unit))).1.minimal.status = .success) := by
  obtain ⟨h, hr⟩ := Toy.creach_b4 Unit _ oc
  exact ⟨h, _, hr, rfl, by decide +kernel, by cases oc <;> decide +kernel⟩

end Pkstl
