import Verif.Spec.Vary
import Verif.Lemmas.Seen
import Verif.Lemmas.CLower
/- Where the signature key is used. -/
namespace Pkstl
open Spec

variable {M : Type} {env : Env} {f : Features} {st : Start} {sl : SecureLayer} {g : Bytes → Bytes → Bytes}

theorem readInner_sign (s : Layer) (inc : Bytes) (chk : Bool) :
    s.readInner (withSign env g) inc chk = s.readInner env inc chk := rfl

theorem drainLoop_sign (bs : List Bytes) (s : Layer) (ms : List Message) :
    s.drainLoop (withSign env g) bs ms = s.drainLoop env bs ms := by
  induction bs generalizing s ms with
  | nil => rfl
  | cons b bs ih =>
    unfold Layer.drainLoop
    simp only [ih, readInner_sign]

theorem uncompressUserMsgs_sign (ms : List Message) (acc : List BinMessage) :
    SecureLayer.uncompressUserMsgs (withSign env g).cr ms acc = SecureLayer.uncompressUserMsgs env.cr ms acc := by
  induction ms generalizing acc with
  | nil => rfl
  | cons m ms ih =>
    unfold SecureLayer.uncompressUserMsgs
    cases m <;> simp only [ih]
    rfl

theorem readBin_sign (inc : Bytes) : sl.readBin (withSign env g) inc = sl.readBin env inc := by
  unfold SecureLayer.readBin
  rw [show sl.minimal.read (withSign env g) inc = sl.minimal.read env inc from rfl]
  rcases sl.minimal.read env inc with ⟨m, (_ | msg) | e | p⟩
  · rfl
  · cases msg with
    | connect a k d => rfl
    | ack d =>
      dsimp only
      rw [show m.drainTmpStack (withSign env g) = m.drainTmpStack env from drainLoop_sign _ _ _]
      simp only [uncompressUserMsgs_sign]
      rfl
    | message d => rfl
  · rfl
  · rfl

theorem writeSigned_sign {seed b : Bytes} (w : BufW) (h : g seed b = env.cr.edSign seed b) :
    SecureLayer.writeSigned (withSign env g).cr seed b w = SecureLayer.writeSigned env.cr seed b w := by
  unfold SecureLayer.writeSigned SecureLayer.signAndWriteSig
  rw [show (withSign env g).cr.edSign = g from rfl, h]

theorem writeConnectRaw_sign (hw : Wf env st sl.minimal) (d : Option Bytes) (w : BufW) :
    (∀ g, sl.writeConnectRaw (withSign env g) d w = sl.writeConnectRaw env d w) ∨
    ∃ seed p, sl.sigSeed = some seed ∧
      ((sl.writeConnectRaw env d w).2.2 = .ok () ∨ (sl.writeConnectRaw env d w).2.2 = .err .bufferFlushError) ∧
      ∀ g : Bytes → Bytes → Bytes,
        (let m := connectFrame (env.cr.xPublic st.random) (env.cr.edPublic seed) p; g seed m = env.cr.edSign seed m) →
        sl.writeConnectRaw (withSign env g) d w = sl.writeConnectRaw env d w := by
  rcases writeConnectRaw_cases env sl d w with ⟨hs, he⟩ | ⟨seed, hs, h1, he⟩ | ⟨seed, rem, hs, h1, he⟩
  · left
    intro g
    rw [he]
    unfold SecureLayer.writeConnectRaw
    rw [hs]
  · left
    intro g
    rw [he]
    rcases writeConnectRaw_cases (withSign env g) sl d w with ⟨hs', -⟩ | ⟨_, hs', -, he'⟩ | ⟨_, rem', -, h1', -⟩
    · rw [hs] at hs'; cases hs'
    · exact he'
    · exact absurd h1' (h1 rem')
  · right
    refine ⟨seed, d.getD [], hs, ?_, fun g hg => ?_⟩
    · rw [he]
      exact writeSigned_res _ _ _ _
    · rw [he]
      rcases writeConnectRaw_cases (withSign env g) sl d w with ⟨hs', -⟩ | ⟨_, -, h1', -⟩ | ⟨_, rem', hs', h1', he'⟩
      · rw [hs] at hs'; cases hs'
      · exact absurd h1 (h1' rem)
      · rw [hs] at hs'
        cases hs'
        rw [h1] at h1'
        cases h1'
        rw [he', hw.epub, show (withSign env g).cr.edPublic = env.cr.edPublic from rfl, writeSigned_sign w hg]

theorem writeAckRaw_sign (hw : Wf env st sl.minimal) (d : Option Bytes) (w : BufW) :
    (∀ g, sl.writeAckRaw (withSign env g) d w = sl.writeAckRaw env d w) ∨
    ∃ seed epk p loc, sl.sigSeed = some seed ∧ sl.minimal.peerEpk = some epk ∧
      sl.minimal.status = .ongoing loc .validConnectMsgReceived ∧
      ((sl.writeAckRaw env d w).2.2 = .ok () ∨ (sl.writeAckRaw env d w).2.2 = .err .bufferFlushError) ∧
      ∀ g : Bytes → Bytes → Bytes,
        (let m := ackFrame (env.cr.sha256 epk) p; g seed m = env.cr.edSign seed m) →
        sl.writeAckRaw (withSign env g) d w = sl.writeAckRaw env d w := by
  have hw' : ∀ g, Wf (withSign env g) st sl.minimal := fun g =>
    ⟨hw.epub, hw.kp, hw.wait, hw.past, hw.peer, hw.secr, hw.fresh, hw.win, hw.stack, hw.stackP, hw.ackP, hw.expc, hw.sent⟩
  rcases writeAckRaw_cases hw d w with ⟨hs, he⟩ | ⟨seed, hs, h1, he⟩ | ⟨seed, loc, epk, hs, h1, h2, he⟩
  · left
    intro g
    rw [he]
    unfold SecureLayer.writeAckRaw
    rw [hs]
  · left
    intro g
    rw [he]
    rcases writeAckRaw_cases (hw' g) d w with ⟨hs', -⟩ | ⟨_, hs', -, he'⟩ | ⟨_, loc', _, -, h1', -⟩
    · rw [hs] at hs'; cases hs'
    · exact he'
    · exact absurd h1' (h1 loc')
  · right
    refine ⟨seed, epk, d.getD [], loc, hs, h2, h1, ?_, fun g hg => ?_⟩
    · rw [he]
      exact writeSigned_res _ _ _ _
    · rw [he]
      rcases writeAckRaw_cases (hw' g) d w with ⟨hs', -⟩ | ⟨_, -, h1', -⟩ | ⟨_, loc', epk', hs', h1', h2', he'⟩
      · rw [hs] at hs'; cases hs'
      · exact absurd h1 (h1' loc)
      · rw [hs] at hs'
        cases hs'
        rw [h1] at h1'
        cases h1'
        rw [h2] at h2'
        cases h2'
        rw [he', show (withSign env g).cr.sha256 = env.cr.sha256 from rfl, writeSigned_sign w hg]

/-- What one call signs: nothing, a CONNECT, or an ACK. -/
theorem cstep_sign (hw : Wf env st sl.minimal) (op : COp M) :
    (∀ g, cstep (withSign env g) f sl op = cstep env f sl op) ∨
    (∃ seed p, sl.sigSeed = some seed ∧ (cstep env f sl op).2.consumesConnect = true ∧
      ∀ g : Bytes → Bytes → Bytes,
        (let m := connectFrame (env.cr.xPublic st.random) (env.cr.edPublic seed) p; g seed m = env.cr.edSign seed m) →
        cstep (withSign env g) f sl op = cstep env f sl op) ∨
    (∃ seed epk p loc, sl.sigSeed = some seed ∧ sl.minimal.peerEpk = some epk ∧
      sl.minimal.status = .ongoing loc .validConnectMsgReceived ∧ (cstep env f sl op).2.consumesAck = true ∧
      ∀ g : Bytes → Bytes → Bytes, (let m := ackFrame (env.cr.sha256 epk) p; g seed m = env.cr.edSign seed m) →
        cstep (withSign env g) f sl op = cstep env f sl op) := by
  cases op with
  | readBin b => left; intro g; simp only [cstep, readBin_sign]
  | readSer c b => left; intro g; simp only [cstep, SecureLayer.readSer, readBin_sign]
  | connectBin d w =>
    rcases writeConnectRaw_sign hw (d.map (sl.compress env.cr)) w with h | ⟨seed, p, h1, h2, h3⟩
    · left
      intro g
      have : sl.writeConnectBin (withSign env g) d w = sl.writeConnectBin env d w := h g
      simp only [cstep, this]
    · right; left
      refine ⟨seed, p, h1, ?_, fun g hg => ?_⟩
      · simpa [cstep, SecureLayer.writeConnectBin, CEvent.consumesConnect] using h2
      · have : sl.writeConnectBin (withSign env g) d w = sl.writeConnectBin env d w := h3 g hg
        simp only [cstep, this]
  | connectSer c d w =>
    have hse : ∀ g, SecureLayer.serializeOpt (withSign env g).cr c sl d = SecureLayer.serializeOpt env.cr c sl d := fun g => rfl
    cases hd : SecureLayer.serializeOpt env.cr c sl d with
    | err e => left; intro g; simp only [cstep, SecureLayer.writeConnectSer, hse, hd]
    | panic e => left; intro g; simp only [cstep, SecureLayer.writeConnectSer, hse, hd]
    | ok b =>
      rcases writeConnectRaw_sign hw b w with h | ⟨seed, p, h1, h2, h3⟩
      · left; intro g; simp only [cstep, SecureLayer.writeConnectSer, hse, hd, h]
      · right; left
        refine ⟨seed, p, h1, ?_, fun g hg => ?_⟩
        · simpa [cstep, SecureLayer.writeConnectSer, hd, CEvent.consumesConnect] using h2
        · simp only [cstep, SecureLayer.writeConnectSer, hse, hd, h3 g hg]
  | ackBin d w =>
    rcases writeAckRaw_sign hw (d.map (sl.compress env.cr)) w with h | ⟨seed, epk, p, loc, h1, h2, h3, h4, h5⟩
    · left
      intro g
      have : sl.writeAckBin (withSign env g) d w = sl.writeAckBin env d w := h g
      simp only [cstep, this]
    · right; right
      refine ⟨seed, epk, p, loc, h1, h2, h3, ?_, fun g hg => ?_⟩
      · simpa [cstep, SecureLayer.writeAckBin, CEvent.consumesAck] using h4
      · have : sl.writeAckBin (withSign env g) d w = sl.writeAckBin env d w := h5 g hg
        simp only [cstep, this]
  | ackSer c d w =>
    have hse : ∀ g, SecureLayer.serializeOpt (withSign env g).cr c sl d = SecureLayer.serializeOpt env.cr c sl d := fun g => rfl
    cases hd : SecureLayer.serializeOpt env.cr c sl d with
    | err e => left; intro g; simp only [cstep, SecureLayer.writeAckSer, hse, hd]
    | panic e => left; intro g; simp only [cstep, SecureLayer.writeAckSer, hse, hd]
    | ok b =>
      rcases writeAckRaw_sign hw b w with h | ⟨seed, epk, p, loc, h1, h2, h3, h4, h5⟩
      · left; intro g; simp only [cstep, SecureLayer.writeAckSer, hse, hd, h]
      · right; right
        refine ⟨seed, epk, p, loc, h1, h2, h3, ?_, fun g hg => ?_⟩
        · simpa [cstep, SecureLayer.writeAckSer, hd, CEvent.consumesAck] using h4
        · simp only [cstep, SecureLayer.writeAckSer, hse, hd, h5 g hg]
  | writeBin d w => left; intro g; rfl
  | writeSer c d w => left; intro g; rfl
  | clone => left; intro g; rfl
  | config c => left; intro g; rfl

theorem cinputs_snoc_sub (h : List (CEvent M)) (e : CEvent M) : cinputs h ⊆ cinputs (h ++ [e]) := by
  intro x hx
  simp only [cinputs, List.flatMap_append]
  exact List.mem_append_left _ hx

theorem crun_sign {st : CStart} {h : List (CEvent M)} (hr : CRun env f st h sl) :
    ∃ C A : List Bytes, C.length ≤ h.countP CEvent.consumesConnect ∧ A.length ≤ h.countP CEvent.consumesAck ∧
      (∀ m ∈ C, ∃ p, m = connectFrame (env.cr.xPublic st.random) (env.cr.edPublic st.sigSeed) p) ∧
      (∀ m ∈ A, ∃ epk p, m = ackFrame (env.cr.sha256 epk) p ∧ ∃ inc ∈ cinputs h, ∃ k, SignedConnect env.cr inc epk k) ∧
      ∀ g : Bytes → Bytes → Bytes, (∀ m, m ∈ C ∨ m ∈ A → g st.sigSeed m = env.cr.edSign st.sigSeed m) →
        CRun (withSign env g) f st h sl := by
  induction hr with
  | init hc => exact ⟨[], [], by simp, by simp, by simp, by simp, fun g _ => .init hc⟩
  | @call h sl hr op ih =>
    obtain ⟨C, A, h1, h2, h3, h4, h5⟩ := ih
    have h4' : ∀ m ∈ A, ∃ epk p, m = ackFrame (env.cr.sha256 epk) p ∧
        ∃ inc ∈ cinputs (h ++ [(cstep env f sl op).2]), ∃ k, SignedConnect env.cr inc epk k := by
      intro m hm
      obtain ⟨epk, p, h6, h7⟩ := h4 m hm
      exact ⟨epk, p, h6, mono_mem (cinputs_snoc_sub _ _) h7⟩
    have hseed : ∀ {seed}, sl.sigSeed = some seed → seed = st.sigSeed := by
      intro seed hs
      rcases hr.lower.2 with h | h <;> rw [hs] at h <;> cases h
      rfl
    simp only [List.countP_append, List.countP_cons, List.countP_nil]
    rcases cstep_sign (f := f) hr.wf op with hs | ⟨seed, p, hs, hc, hg⟩ | ⟨seed, epk, p, loc, hs, he, hst, hc, hg⟩
    · refine ⟨C, A, by omega, by omega, h3, h4', fun g hg => ?_⟩
      have := CRun.call (h5 g hg) op
      rwa [hs g] at this
    · obtain rfl := hseed hs
      refine ⟨connectFrame (env.cr.xPublic st.random) (env.cr.edPublic st.sigSeed) p :: C, A, ?_, by omega, ?_, h4',
        fun g hg' => ?_⟩
      · simp only [List.length_cons, hc, if_true]; omega
      · intro m hm
        rcases List.mem_cons.mp hm with rfl | hm
        · exact ⟨p, rfl⟩
        · exact h3 m hm
      · have := CRun.call (h5 g fun m hm => hg' m (hm.imp_left (List.mem_cons_of_mem _))) op
        rwa [hg g (hg' _ (.inl List.mem_cons_self))] at this
    · obtain rfl := hseed hs
      refine ⟨C, ackFrame (env.cr.sha256 epk) p :: A, by omega, ?_, h3, ?_, fun g hg' => ?_⟩
      · simp only [List.length_cons, hc, if_true]; omega
      · intro m hm
        rcases List.mem_cons.mp hm with rfl | hm
        · refine ⟨epk, p, rfl, ?_⟩
          obtain ⟨⟨l, hl, hlow⟩, -⟩ := hr.lower
          obtain ⟨k, epk', -, he', inc, hin, hsc⟩ := (Seen.of_run hl).con _ _ hst (by simp)
          rw [he] at he'
          cases he'
          rw [hlow.inputs] at hin
          exact ⟨inc, cinputs_snoc_sub _ _ hin, k, hsc⟩
        · exact h4' m hm
      · have := CRun.call (h5 g fun m hm => hg' m (hm.imp_right (List.mem_cons_of_mem _))) op
        rwa [hg g (hg' _ (.inr List.mem_cons_self))] at this
  | @cloned h sl c hr hc ih =>
    obtain ⟨C, A, h1, h2, h3, h4, h5⟩ := ih
    simp only [List.countP_append]
    refine ⟨C, A, by omega, by omega, h3, fun m hm => ?_, fun g hg => .cloned (h5 g hg) hc⟩
    obtain ⟨epk, p, h6, h7⟩ := h4 m hm
    exact ⟨epk, p, h6, mono_mem (cinputs_snoc_sub _ _) h7⟩

end Pkstl
