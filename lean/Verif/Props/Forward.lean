import Verif.Props.Calls
import Verif.Spec.Forward
/- C72: forward secrecy. -/
namespace Pkstl
open Spec

section
variable {env : Env} {f : Features} {M : Type}

theorem Spec.SameShape.refl (w : BufW) : SameShape w w := ⟨rfl, rfl, rfl, rfl⟩

theorem flushLoop_shape (sc : List WResp) (t t' d d' : Bytes) (ht : t'.length = t.length) (hd : d'.length = d.length) :
    (flushLoop sc t' d').1.taken.length = (flushLoop sc t d).1.taken.length ∧
    (flushLoop sc t' d').1.script = (flushLoop sc t d).1.script ∧
    (flushLoop sc t' d').2.1.length = (flushLoop sc t d).2.1.length ∧
    (flushLoop sc t' d').2.2 = (flushLoop sc t d).2.2 := by
  induction sc generalizing t t' d d' with
  | nil =>
    cases d <;> cases d' <;> simp_all [flushLoop]
  | cons x r ih =>
    cases d with
    | nil =>
      cases d' with
      | nil => simp [flushLoop, ht]
      | cons => simp at hd
    | cons y d =>
      cases d' with
      | nil => simp at hd
      | cons y' d' =>
        cases x with
        | accept n =>
          cases n with
          | zero => simp [flushLoop, ht, hd]
          | succ n =>
            simp only [flushLoop]
            refine ih _ _ _ _ ?_ ?_
            · simp [ht, hd]; simp at hd; simp [hd]
            · simp at hd; simp [hd]
        | interrupted => simp only [flushLoop]; exact ih _ _ _ _ ht hd
        | fail => simp [flushLoop, ht, hd]

theorem sinkWrite_shape {s s' : Sink} {d d' : Bytes} (h1 : s'.taken.length = s.taken.length) (h2 : s'.script = s.script)
    (hd : d'.length = d.length) :
    (s'.write d').1.taken.length = (s.write d).1.taken.length ∧ (s'.write d').1.script = (s.write d).1.script ∧
    (s'.write d').2 = (s.write d).2 := by
  unfold Sink.write
  rw [h2]
  split <;> simp [h1, h2, hd]

theorem writeNoFlush_shape {w w' : BufW} {d d' : Bytes} (h : SameShape w w') (hd : d'.length = d.length) :
    SameShape (w.writeNoFlush d).1 (w'.writeNoFlush d').1 ∧ (w'.writeNoFlush d').2 = (w.writeNoFlush d).2 := by
  obtain ⟨a1, a2, a3⟩ := sinkWrite_shape h.taken h.script hd
  unfold BufW.writeNoFlush
  rw [h.cap, hd]
  split
  · rcases h1 : w.sink.write d with ⟨s1, r1⟩
    rcases h2 : w'.sink.write d' with ⟨s2, r2⟩
    rw [h1, h2] at a1 a2 a3
    exact ⟨⟨rfl, h.buf, a1, a2⟩, a3⟩
  · exact ⟨⟨rfl, by simp [h.buf, hd], h.taken, h.script⟩, rfl⟩

theorem write_shape {w w' : BufW} {d d' : Bytes} (h : SameShape w w') (hd : d'.length = d.length) :
    SameShape (w.write d).1 (w'.write d').1 ∧ (w'.write d').2 = (w.write d).2 := by
  unfold BufW.write
  rw [h.cap, h.buf, hd]
  split
  · obtain ⟨b1, b2, b3, b4⟩ := flushLoop_shape w.sink.script w.sink.taken w'.sink.taken w.buf w'.buf h.taken h.buf
    unfold BufW.flushBuf
    rw [h.script]
    rcases h1 : flushLoop w.sink.script w.sink.taken w.buf with ⟨s1, l1, e1⟩
    rcases h2 : flushLoop w.sink.script w'.sink.taken w'.buf with ⟨s2, l2, e2⟩
    rw [h1, h2] at b1 b2 b3 b4
    dsimp only at b1 b2 b3 b4
    subst b4
    cases e2 with
    | some e => exact ⟨⟨h.cap, b3, b1, b2⟩, rfl⟩
    | none => exact writeNoFlush_shape ⟨h.cap, b3, b1, b2⟩ hd
  · exact writeNoFlush_shape h hd

theorem writeSigned_shape (law : env.cr.Lawful) (seed seed' m m' : Bytes) (w : BufW) (hm : m'.length = m.length) :
    SameShape (SecureLayer.writeSigned env.cr seed m w).1 (SecureLayer.writeSigned env.cr seed' m' w).1 ∧
    (SecureLayer.writeSigned env.cr seed' m' w).2 = (SecureLayer.writeSigned env.cr seed m w).2 := by
  obtain ⟨a1, a2⟩ := write_shape (SameShape.refl w) hm
  unfold SecureLayer.writeSigned SecureLayer.signAndWriteSig
  rcases h1 : w.write m with ⟨w1, r1⟩
  rcases h2 : w.write m' with ⟨w2, r2⟩
  rw [h1, h2] at a1 a2
  dsimp only at a1 a2
  subst a2
  cases r2 with
  | error e => exact ⟨a1, rfl⟩
  | ok n =>
    dsimp only
    obtain ⟨c1, c2⟩ := write_shape (d := env.cr.edSign seed m) (d' := env.cr.edSign seed' m') a1
      (by rw [law.edSign_length, law.edSign_length])
    rcases h3 : w1.write (env.cr.edSign seed m) with ⟨w3, r3⟩
    rcases h4 : w2.write (env.cr.edSign seed' m') with ⟨w4, r4⟩
    rw [h3, h4] at c1 c2
    dsimp only at c1 c2
    subst c2
    cases r4 <;> exact ⟨c1, rfl⟩

/-- The layer with another signature key, if it has one. -/
def rekey (k : Bytes) (sl : SecureLayer) : SecureLayer := { sl with sigSeed := sl.sigSeed.map fun _ => k }

theorem connectRaw_rekey (law : env.cr.Lawful) (sl : SecureLayer) (k : Bytes) (d : Option Bytes) (w : BufW) :
    ((rekey k sl).writeConnectRaw env d w).1 = rekey k (sl.writeConnectRaw env d w).1 ∧
    SameShape (sl.writeConnectRaw env d w).2.1 ((rekey k sl).writeConnectRaw env d w).2.1 ∧
    ((rekey k sl).writeConnectRaw env d w).2.2 = (sl.writeConnectRaw env d w).2.2 := by
  unfold SecureLayer.writeConnectRaw
  rcases hs : sl.sigSeed with _ | seed
  · simp [rekey, hs, SameShape.refl]
  · have hs' : (rekey k sl).sigSeed = some k := by simp [rekey, hs]
    have hm : (rekey k sl).minimal = sl.minimal := rfl
    rw [hs']
    dsimp only
    rw [hm]
    rcases createConnect_cases env sl.minimal (env.cr.edPublic seed) d with ⟨rem, h1, h2⟩ | ⟨h1, h2⟩
    · rcases createConnect_cases env sl.minimal (env.cr.edPublic k) d with ⟨rem', h1', h2'⟩ | ⟨h1', h2'⟩
      · rw [h1] at h1'; cases h1'
        rw [h2, h2']
        dsimp only
        obtain ⟨b1, b2⟩ := writeSigned_shape law seed k
          (connectFrame sl.minimal.ephemeralPubkey (env.cr.edPublic seed) (d.getD []))
          (connectFrame sl.minimal.ephemeralPubkey (env.cr.edPublic k) (d.getD [])) w
          (by simp [connectFrame, frame, law.edPublic_length])
        refine ⟨?_, b1, b2⟩
        simp [rekey, hs]
      · exact absurd h1 (h1' _)
    · rcases createConnect_cases env sl.minimal (env.cr.edPublic k) d with ⟨rem', h1', h2'⟩ | ⟨h1', h2'⟩
      · exact absurd h1' (h1 _)
      · rw [h2, h2']
        simp [rekey, hs, SameShape.refl]

theorem ackRaw_rekey (law : env.cr.Lawful) (sl : SecureLayer) (k : Bytes) (d : Option Bytes) (w : BufW) :
    ((rekey k sl).writeAckRaw env d w).1 = rekey k (sl.writeAckRaw env d w).1 ∧
    SameShape (sl.writeAckRaw env d w).2.1 ((rekey k sl).writeAckRaw env d w).2.1 ∧
    ((rekey k sl).writeAckRaw env d w).2.2 = (sl.writeAckRaw env d w).2.2 := by
  unfold SecureLayer.writeAckRaw
  rcases hs : sl.sigSeed with _ | seed
  · simp [rekey, hs, SameShape.refl]
  · have hs' : (rekey k sl).sigSeed = some k := by simp [rekey, hs]
    have hm : (rekey k sl).minimal = sl.minimal := rfl
    rw [hs']
    dsimp only
    rw [hm]
    rcases h : sl.minimal.createAck env d with ⟨m, r | r | r⟩
    · dsimp only
      obtain ⟨b1, b2⟩ := writeSigned_shape law seed k r r w rfl
      exact ⟨by simp [rekey, hs], b1, b2⟩
    · simp [rekey, hs, SameShape.refl]
    · simp [rekey, hs, SameShape.refl]

theorem readBin_rekey (sl : SecureLayer) (k b : Bytes) :
    (rekey k sl).readBin env b = (rekey k (sl.readBin env b).1, (sl.readBin env b).2) := by
  have hm : (rekey k sl).minimal = sl.minimal := rfl
  unfold SecureLayer.readBin
  rw [hm]
  rcases sl.minimal.read env b with ⟨m, (_ | (_ | _ | _)) | _ | _⟩ <;> dsimp only
  all_goals first | rfl | skip
  all_goals
    repeat' split
    all_goals rfl

theorem cstep_rekey (law : env.cr.Lawful) (sl : SecureLayer) (k : Bytes) (op : COp M) :
    (cstep env f (rekey k sl) op).1 = rekey k (cstep env f sl op).1 ∧
    (cstep env f sl op).2.Resigned (cstep env f (rekey k sl) op).2 := by
  have hm : (rekey k sl).minimal = sl.minimal := rfl
  have hcp : ∀ b, (rekey k sl).compress env.cr b = sl.compress env.cr b := fun _ => rfl
  have hcf : (rekey k sl).compress env.cr = sl.compress env.cr := funext hcp
  cases op with
  | readBin b => simp [cstep, readBin_rekey, CEvent.Resigned]
  | readSer c b =>
    simp only [cstep, SecureLayer.readSer, readBin_rekey, CEvent.Resigned]
    rcases sl.readBin env b with ⟨s, r | r | r⟩ <;> exact ⟨rfl, rfl⟩
  | connectBin d w =>
    simp only [cstep, SecureLayer.writeConnectBin, hcf, CEvent.Resigned, true_and]
    obtain ⟨h1, h2, h3⟩ := connectRaw_rekey law sl k (d.map (sl.compress env.cr)) w
    exact ⟨h1, h3, h2⟩
  | ackBin d w =>
    simp only [cstep, SecureLayer.writeAckBin, hcf, CEvent.Resigned, true_and]
    obtain ⟨h1, h2, h3⟩ := ackRaw_rekey law sl k (d.map (sl.compress env.cr)) w
    exact ⟨h1, h3, h2⟩
  | connectSer c d w =>
    have hso : SecureLayer.serializeOpt env.cr c (rekey k sl) d = SecureLayer.serializeOpt env.cr c sl d := by cases d <;> rfl
    simp only [cstep, SecureLayer.writeConnectSer, hso, CEvent.Resigned, true_and]
    cases SecureLayer.serializeOpt env.cr c sl d with
    | ok b =>
      obtain ⟨h1, h2, h3⟩ := connectRaw_rekey law sl k b w
      exact ⟨h1, h3, h2⟩
    | err e => exact ⟨rfl, rfl, .refl _⟩
    | panic p => exact ⟨rfl, rfl, .refl _⟩
  | ackSer c d w =>
    have hso : SecureLayer.serializeOpt env.cr c (rekey k sl) d = SecureLayer.serializeOpt env.cr c sl d := by cases d <;> rfl
    simp only [cstep, SecureLayer.writeAckSer, hso, CEvent.Resigned, true_and]
    cases SecureLayer.serializeOpt env.cr c sl d with
    | ok b =>
      obtain ⟨h1, h2, h3⟩ := ackRaw_rekey law sl k b w
      exact ⟨h1, h3, h2⟩
    | err e => exact ⟨rfl, rfl, .refl _⟩
    | panic p => exact ⟨rfl, rfl, .refl _⟩
  | writeBin d w => exact ⟨rfl, rfl⟩
  | writeSer c d w =>
    simp only [cstep, SecureLayer.writeSer, hm, hcp, CEvent.Resigned]
    cases serialize c d sl.minimal.config.messageFormat <;> exact ⟨rfl, rfl⟩
  | clone =>
    simp only [cstep, SecureLayer.tryClone, hm, CEvent.Resigned]
    rcases sl.minimal.tryClone with ⟨s, r | r | r⟩ <;> exact ⟨rfl, rfl⟩
  | config c => exact ⟨rfl, rfl⟩

/-- **C72.** With another long-term signature key every history goes the same way: each call has the same result, the layer
has the same session secret and is in the same state throughout, every user message has the same bytes.  Only the bytes of
the CONNECT and the ACK message are others. -/
theorem C72_signature_key (law : env.cr.Lawful) {st : CStart} {h : List (CEvent M)} {sl : SecureLayer}
    (hr : CRun env f st h sl) (seed : Option Bytes) (seedRandom : Bytes) :
    ∃ h' sl', CRun env f (st.withKey seed seedRandom) h' sl' ∧ sl'.minimal = sl.minimal ∧
      List.Forall₂ CEvent.Resigned h h' := by
  have key : ∃ h', CRun env f (st.withKey seed seedRandom) h' (rekey (st.withKey seed seedRandom).sigSeed sl) ∧
      List.Forall₂ CEvent.Resigned h h' := by
    induction hr with
    | @init sl h0 =>
      refine ⟨[], .init ?_, .nil⟩
      obtain ⟨cfg, ex, rnd, sd, sr⟩ := st
      cases sd <;> cases seed <;> cases ex <;>
        simp_all [SecureLayer.create, Layer.create, CStart.withKey, CStart.sigSeed] <;>
        (cases h0; rfl)
    | @call h sl hr op ih =>
      obtain ⟨h', hr', hf⟩ := ih
      obtain ⟨h1, h2⟩ := cstep_rekey (f := f) law sl (st.withKey seed seedRandom).sigSeed op
      exact ⟨_, h1 ▸ hr'.call op, List.rel_append hf (.cons h2 .nil)⟩
    | @cloned h sl c hr hc ih =>
      obtain ⟨h', hr', hf⟩ := ih
      have h1 : (rekey (st.withKey seed seedRandom).sigSeed sl).tryClone.2 =
          .ok (rekey (st.withKey seed seedRandom).sigSeed c) := by
        have hm : (rekey (st.withKey seed seedRandom).sigSeed sl).minimal = sl.minimal := rfl
        simp only [SecureLayer.tryClone, hm] at hc ⊢
        rcases h2 : sl.minimal.tryClone with ⟨s, r | r | r⟩ <;> rw [h2] at hc <;> dsimp only at hc
        · cases hc; rfl
        · cases hc
        · cases hc
      exact ⟨_, hr'.cloned h1, List.rel_append hf (.cons rfl .nil)⟩
  obtain ⟨h', hr', hf⟩ := key
  exact ⟨h', _, hr', rfl, hf⟩

/-- **C72.** A layer that has a session secret does not hold the private ephemeral key. -/
theorem C72_secret {st : Start} {h : List Event} {s : Layer} (hr : Run env st h s) (hs : s.secret ≠ none) :
    s.ephemeralKp = none := by
  by_contra hc
  obtain ⟨kp, hkp⟩ := Option.ne_none_iff_exists'.mp hc
  exact hs ((Wf.of_run hr).kp _ hkp).2.2

/-- **C72.** As soon as a layer has handed over a CONNECT message it has a session secret and does not hold the private
ephemeral key any more, whatever is called afterwards; nor do its clones. -/
theorem C72_erased {st : Start} {h : List Event} {s : Layer} (hr : Run env st h s)
    (hh : ∃ m ∈ deliveries h, isConnect m = true) : s.secret ≠ none ∧ s.ephemeralKp = none :=
  have h1 := secret_of_heard hr hh
  ⟨h1, C72_secret hr h1⟩

/-- **C72.** The same for the complete mode. -/
theorem C72_erased_complete {st : CStart} {h : List (CEvent M)} {sl : SecureLayer} (hr : CRun env f st h sl)
    (hh : (Progress.ofC h).heard = true) : sl.minimal.secret ≠ none ∧ sl.minimal.ephemeralKp = none := by
  obtain ⟨⟨l, hl, -⟩, -⟩ := hr.lower
  have h1 := csecret_of_heard hr hh
  exact ⟨h1, C72_secret hl h1⟩

/-- The start of a session: Bob reads Alice's CONNECT and writes Bob's.  With another long-term key Bob gets the same session
secret and holds no private key either; the CONNECT message is not the same. -/
example (oc : Bool) : ∃ (e e' : CEvent Unit) (sl sl' : SecureLayer),
    CRun (Toy.env oc) f Toy.cstB [.readBin Toy.cconA (.ok [.connect (some [7, 8]) Toy.pkA]), e] sl ∧
    CRun (Toy.env oc) f (Toy.cstB.withKey (some (List.replicate 32 9)) [])
      [.readBin Toy.cconA (.ok [.connect (some [7, 8]) Toy.pkA]), e'] sl' ∧
    e.Resigned e' ∧ e' ≠ e ∧ sl'.minimal = sl.minimal ∧ sl.minimal.secret = some Toy.key ∧
    sl.minimal.ephemeralKp = none := by
  have s1 : (Toy.csB (Toy.layer0 [2] none)).readBin (Toy.env oc) Toy.cconA =
      (Toy.csB Toy.b1, .ok [.connect (some [7, 8]) Toy.pkA]) :=
    Prod.ext (by cases oc <;> decide +kernel) (by cases oc <;> decide +kernel)
  have s2 := readBin_rekey (env := Toy.env oc) (Toy.csB (Toy.layer0 [2] none)) (List.replicate 32 9) Toy.cconA
  rw [s1] at s2
  have r0 : CRun (M := Unit) (Toy.env oc) f Toy.cstB [] (Toy.csB (Toy.layer0 [2] none)) := .init rfl
  have r0' : CRun (M := Unit) (Toy.env oc) f (Toy.cstB.withKey (some (List.replicate 32 9)) []) []
    (rekey (List.replicate 32 9) (Toy.csB (Toy.layer0 [2] none))) := .init rfl
  have r1 := r0.call (.readBin Toy.cconA)
  have r1' := r0'.call (.readBin Toy.cconA)
  simp only [cstep, s1] at r1
  simp only [cstep, s2] at r1'
  obtain ⟨h1, h2⟩ := cstep_rekey (env := Toy.env oc) (f := f) (M := Unit) Toy.lawful (Toy.csB Toy.b1) (List.replicate 32 9)
    (.connectBin none Toy.sink)
  refine ⟨_, _, _, _, r1.call (.connectBin none Toy.sink), r1'.call (.connectBin none Toy.sink), h2, ?_, ?_, rfl, rfl⟩
  · have hd : ((rekey (List.replicate 32 9) (Toy.csB Toy.b1)).writeConnectBin (Toy.env oc) none Toy.sink).2.1 ≠
      ((Toy.csB Toy.b1).writeConnectBin (Toy.env oc) none Toy.sink).2.1 := by cases oc <;> decide +kernel
    intro hc
    simp only [cstep, CEvent.connectBin.injEq] at hc
    exact hd hc.2.2.1
  · rw [h1]; rfl

end
end Pkstl
