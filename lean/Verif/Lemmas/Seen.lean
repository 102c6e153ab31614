import Verif.Lemmas.Frame
import Verif.Lemmas.Clone
import Verif.Lemmas.CKeep
import Verif.Spec.CHistory
/- What the negotiation status says about the signed messages among the inputs. -/
namespace Pkstl
open Spec

variable {env : Env} {st : Start} {s s' : Layer} {I I' : List Bytes}

/-- The signed messages behind the negotiation status. -/
structure Seen (env : Env) (st : Start) (I : List Bytes) (s : Layer) : Prop where
  con : ∀ loc rem, s.status = .ongoing loc rem → rem ≠ .waitConnectMsg →
    ∃ k epk, s.peerSigPubkey = some k ∧ s.peerEpk = some epk ∧ ∃ inc ∈ I, SignedConnect env.cr inc epk k
  ack : ∀ rem, s.status = .ongoing .validAckMsgReceived rem →
    ∃ k, s.peerSigPubkey = some k ∧ ∃ inc ∈ I, SignedAck env.cr inc (env.cr.sha256 (env.cr.xPublic st.random)) k
  suc : s.status = .success → ∃ k epk, Vouched env.cr st I s.secret k epk

theorem mono_mem {P : Bytes → Prop} (hI : I ⊆ I') (h : ∃ x ∈ I, P x) : ∃ x ∈ I', P x := by
  obtain ⟨x, h1, h2⟩ := h
  exact ⟨x, hI h1, h2⟩

theorem Seen.keep (h : Seen env st I s) (hI : I ⊆ I') (hf : StepFrame s s')
    (hst : s'.status = s.status ∨ s'.status = .fail) (hsec : s.status = .success → s'.secret = s.secret) :
    Seen env st I' s' := by
  rcases hst with hst | hst
  · refine ⟨?_, ?_, ?_⟩
    · intro loc rem hs hr
      obtain ⟨k, epk, h1, h2, h3⟩ := h.con loc rem (hst ▸ hs) hr
      exact ⟨k, epk, hf.psk _ h1, hf.epk _ h2, mono_mem hI h3⟩
    · intro rem hs
      obtain ⟨k, h1, h3⟩ := h.ack rem (hst ▸ hs)
      exact ⟨k, hf.psk _ h1, mono_mem hI h3⟩
    · intro hs
      obtain ⟨k, epk, h1, h2, h3, h4⟩ := h.suc (hst ▸ hs)
      exact ⟨k, epk, mono_mem hI h1, mono_mem hI h2, h3, by rw [hsec (hst ▸ hs), h4]⟩
  · exact ⟨by simp [hst], by simp [hst], by simp [hst]⟩

/-- A layer whose negotiation is complete on both sides. -/
theorem Seen.finish (h : Seen env st I s) (hw : Wf env st s) (hI : I ⊆ I') {loc : LocalNego} {rem : RemoteNego}
    (hs : s.status = .ongoing loc rem) (hr : rem ≠ .waitConnectMsg)
    (hack : ∃ k, s.peerSigPubkey = some k ∧ ∃ inc ∈ I', SignedAck env.cr inc (env.cr.sha256 (env.cr.xPublic st.random)) k) :
    ∃ k epk, Vouched env.cr st I' s.secret k epk := by
  obtain ⟨k, epk, h1, h2, h3⟩ := h.con loc rem hs hr
  obtain ⟨k', h1', h4⟩ := hack
  rw [h1] at h1'
  simp only [Option.some.injEq] at h1'
  subst h1'
  refine ⟨k, epk, mono_mem hI h3, h4, ?_, hw.peer _ h2⟩
  intro x hx
  have := hw.expc x hx (hw.fresh _ _ hs).1
  rw [h1] at this
  simpa using this

theorem readInner_seen (h : Seen env st I s) (hw : Wf env st s) (hI : I ⊆ I') {inc : Bytes} (hin : inc ∈ I') :
    Seen env st I' (s.readInner env inc true).1 := by
  have hf : StepFrame s (s.readInner env inc true).1 := stepFrame hw (.read inc)
  have hsecr := (readFrame env s inc true).secret
  have hcase := readInner_case env s inc true
  have hsec : s.status = .success → (s.readInner env inc true).1.secret = s.secret := by
    intro hs
    rcases hsecr with h | ⟨⟨loc, h⟩, -⟩
    · exact h
    · rw [hs] at h; simp at h
  generalize (s.readInner env inc true).2 = r at hcase
  generalize (s.readInner env inc true).1 = s1 at hcase hf hsec
  clear hsecr
  have con : ∀ {d : DecryptedIncomingData} {epk algo k loc} {s2 : Layer}, readerRead env s.secret inc true = .ok d →
      d.msgTypeHeaders = .connect epk algo k →
      env.cr.edVerify k (d.data.take d.userMsgEnd) (d.data.drop d.userMsgEnd) = true →
      s.status = .ongoing loc .waitConnectMsg → (s.peerSigPubkey = none ∨ s.peerSigPubkey = some k) →
      s2.status = .ongoing loc .validConnectMsgReceived → s2.peerSigPubkey = some k → s2.peerEpk = some epk →
      Seen env st I' s2 := by
    intro d epk algo k loc s2 hp hh hv hs hk h1 h2 h3
    refine ⟨?_, ?_, by simp [h1]⟩
    · intro _ _ _ _
      exact ⟨k, epk, h2, h3, inc, hin, signedConnect_of hp hh hv⟩
    · intro rem hr
      rw [h1] at hr
      simp only [Status.ongoing.injEq] at hr
      obtain ⟨k', h4, h5⟩ := h.ack _ (hr.1 ▸ hs)
      rw [h4] at hk
      simp only [reduceCtorEq, Option.some.injEq, false_or] at hk
      subst hk
      exact ⟨_, h2, mono_mem hI h5⟩
  have nonces : ∀ {n s2 r2}, s.updateNonces env n = (s2, r2) → s2.status = s.status ∨ s2.status = .fail := by
    intro n s2 r2 hu
    obtain ⟨O', n', st', h1, h2, -⟩ := updateNonces_frame env s n
    rw [hu] at h1
    have h1 : s2 = _ := h1
    rw [h1]
    exact h2
  cases hcase with
  | connectNoKp hp hh hk hl hv hs hkp => exact con hp hh hv hs hk rfl rfl rfl
  | connectNoAgreement hp hh hk hl hv hs hkp hsec => exact con hp hh hv hs hk rfl rfl rfl
  | connectOk hp hh hk hl hv hs hkp hsec => exact con hp hh hv hs hk rfl rfl rfl
  | @ackOk d c k rem hp hh hc hk hl hv hs =>
    have hsig := signedAck_of hp hh hv
    rw [hc, hw.epub] at hsig
    refine ⟨?_, ?_, ?_⟩
    · intro loc rem' h1 h2
      by_cases hr : rem = .ackMsgSent
      · simp [hr] at h1
      · simp only [hr, if_false, Status.ongoing.injEq] at h1
        obtain ⟨k, epk, h3, h4, h5⟩ := h.con _ _ hs (h1.2 ▸ h2)
        exact ⟨k, epk, h3, h4, mono_mem hI h5⟩
    · intro _ _
      exact ⟨k, hk, inc, hin, hsig⟩
    · intro h1
      by_cases hr : rem = .ackMsgSent
      · exact h.finish hw hI hs (by simp [hr]) ⟨k, hk, inc, hin, hsig⟩
      · simp [hr] at h1
  | userNonceErr hp hh hn hs hl hv hu => exact h.keep hI hf (nonces hu) hsec
  | userNoncePanic hp hh hn hs hl hv hu => exact h.keep hI hf (nonces hu) hsec
  | userOk hp hh hn hs hl hv hu => exact h.keep hI hf (nonces hu) hsec
  | parsePanic => exact h.keep hI hf (.inl rfl) hsec
  | parseErr => exact h.keep hI hf (.inr rfl) hsec
  | connectKey => exact h.keep hI hf (.inl rfl) hsec
  | connectShort => exact h.keep hI hf (.inl rfl) hsec
  | connectBadSig => exact h.keep hI hf (.inl rfl) hsec
  | connectLate => exact h.keep hI hf (.inr rfl) hsec
  | ackChallenge => exact h.keep hI hf (.inl rfl) hsec
  | ackStored => exact h.keep hI hf (.inl rfl) hsec
  | ackTwice => exact h.keep hI hf (.inr rfl) hsec
  | ackShort => exact h.keep hI hf (.inl rfl) hsec
  | ackBadSig => exact h.keep hI hf (.inl rfl) hsec
  | ackLate => exact h.keep hI hf (.inr rfl) hsec
  | userReplay => exact h.keep hI hf (.inl rfl) hsec
  | userLate => exact h.keep hI hf (.inr rfl) hsec
  | userStacked => exact h.keep hI hf (.inl rfl) hsec
  | userShort => exact h.keep hI hf (.inl rfl) hsec
  | userBadHash => exact h.keep hI hf (.inl rfl) hsec

theorem inputs_snoc_sub (h : List Event) (e : Event) : inputs h ⊆ inputs (h ++ [e]) := by
  intro x hx
  rw [inputs_append]
  exact List.mem_append_left _ hx

theorem Seen.of_run {h : List Event} (hr : Run env st h s) : Seen env st (inputs h) s := by
  induction hr with
  | init h =>
    simp only [Layer.create, EphemeralKeyPair.generate, Res.bind_ok, Res.ok.injEq] at h
    subst h
    exact ⟨by simp +contextual [Status.init], by simp [Status.init], by simp [Status.init]⟩
  | @cloned h s c hr hc ih =>
    obtain ⟨h1, rfl⟩ := tryClone_iff.mp hc
    refine ⟨by simp [h1], by simp [h1], fun _ => ?_⟩
    obtain ⟨k, epk, h2, h3, h4, h5⟩ := ih.suc h1
    exact ⟨k, epk, mono_mem (inputs_snoc_sub _ _) h2, mono_mem (inputs_snoc_sub _ _) h3, h4, h5⟩
  | @call h s hr op ih =>
    have hw := Wf.of_run hr
    have hprov := Prov.of_run hr
    have hI := inputs_snoc_sub h (step env s op).2
    have hsf := stepFrame hw op
    cases op with
    | read b => exact readInner_seen ih hw hI (by simp [inputs, step])
    | takeAck =>
      simp only [step] at hsf hI ⊢
      rcases takeAck_cases env s with ⟨-, he⟩ | ⟨b, hb, he⟩
      · rw [he] at hsf hI ⊢; exact ih.keep hI hsf (.inl rfl) fun _ => rfl
      · rw [he] at hsf hI ⊢
        refine readInner_seen (s := { s with ackMsgRecvTooEarly := none }) ⟨ih.con, ih.ack, ih.suc⟩ (clear_ack hw) hI ?_
        exact hI (hprov.ack _ hb)
    | drain =>
      have heff := drainLoop_effect (env := env) s.tmpStack [] (clear_stack hw) hw.stackP
      exact ih.keep hI hsf heff.1 fun _ => (drain_frame hw).secret
    | connect pk d =>
      simp only [step] at hsf hI ⊢
      rcases createConnect_cases env s pk d with ⟨rem, hs, he⟩ | ⟨-, he⟩ <;> rw [he] at hsf hI ⊢
      · refine ⟨?_, by simp, by simp⟩
        intro loc rem' h1 h2
        simp only [Status.ongoing.injEq] at h1
        obtain ⟨k, epk, h3, h4, h5⟩ := ih.con _ _ hs (h1.2 ▸ h2)
        exact ⟨k, epk, h3, h4, mono_mem hI h5⟩
      · exact ih.keep hI hsf (.inl rfl) fun _ => rfl
    | ack d =>
      simp only [step] at hsf hI ⊢
      rcases createAck_cases env s d with ⟨loc, hs, he⟩ | ⟨-, he⟩ <;> rw [he] at hsf hI ⊢
      · refine ⟨?_, ?_, ?_⟩
        · intro _ _ _ _
          obtain ⟨k, epk, h3, h4, h5⟩ := ih.con _ _ hs (by simp)
          exact ⟨k, epk, h3, h4, mono_mem hI h5⟩
        · intro rem h1
          by_cases hl : loc = .validAckMsgReceived
          · simp [hl] at h1
          · simp [hl] at h1
        · intro h1
          by_cases hl : loc = .validAckMsgReceived
          · subst hl
            obtain ⟨k, h2, h3⟩ := ih.ack _ hs
            exact ih.finish hw hI hs (by simp) ⟨k, h2, mono_mem hI h3⟩
          · simp [hl] at h1
      · exact ih.keep hI hsf (.inl rfl) fun _ => rfl
    | write d w =>
      simp only [step] at hsf hI ⊢
      rcases writeMessage_cases env s d w with ⟨-, he⟩ | ⟨_, _, -, he⟩ | ⟨-, -, he⟩ |
        ⟨hs, k, hk, ⟨w', e, -, he⟩ | ⟨w', -, ⟨n, hn, he⟩ | ⟨-, he⟩⟩⟩ <;> rw [he] at hsf hI ⊢
      · exact ih.keep hI hsf (.inl rfl) fun _ => rfl
      · exact ih.keep hI hsf (.inr rfl) fun _ => rfl
      · exact ih.keep hI hsf (.inl rfl) fun _ => rfl
      · exact ih.keep hI hsf (.inr rfl) fun _ => rfl
      · exact ih.keep hI hsf (.inl rfl) fun _ => rfl
      · exact ih.keep hI hsf (.inl rfl) fun _ => rfl
    | clone =>
      refine ih.keep hI hsf ?_ fun _ => ?_ <;> simp only [step, Layer.tryClone] <;> split <;> simp
    | config c =>
      refine ih.keep hI hsf ?_ fun _ => ?_ <;> simp only [step, Layer.changeConfig] <;> split <;> simp

/-- Once the negotiation is over the session key stays as it is, even if there is none. -/
theorem step_secret_eq (hw : Wf env st s) (hs : ∀ loc rem, s.status ≠ .ongoing loc rem) (op : Op) :
    (step env s op).1.secret = s.secret := by
  cases op with
  | read b =>
    rcases (readFrame env s b true).secret with h | ⟨⟨loc, h⟩, -⟩
    · exact h
    · exact absurd h (hs _ _)
  | takeAck =>
    simp only [step]
    rcases takeAck_cases env s with ⟨-, he⟩ | ⟨b, hb, he⟩
    · rw [he]
    · rw [he]
      rcases (readFrame env { s with ackMsgRecvTooEarly := none } b true).secret with h | ⟨⟨loc, h⟩, -⟩
      · exact h
      · exact absurd h (hs _ _)
  | drain => exact (drain_frame hw).secret
  | connect pk d =>
    simp only [step]
    rcases createConnect_cases env s pk d with ⟨rem, hs, he⟩ | ⟨-, he⟩ <;> rw [he]
  | ack d =>
    simp only [step]
    rcases createAck_cases env s d with ⟨loc, hs, he⟩ | ⟨-, he⟩ <;> rw [he]
  | write d w =>
    simp only [step]
    rcases writeMessage_cases env s d w with ⟨-, he⟩ | ⟨_, _, -, he⟩ | ⟨-, -, he⟩ |
      ⟨hs, k, hk, ⟨w', e, -, he⟩ | ⟨w', -, ⟨n, hn, he⟩ | ⟨-, he⟩⟩⟩ <;> rw [he]
  | clone => simp only [step, Layer.tryClone]; split <;> simp
  | config c => simp only [step, Layer.changeConfig]; split <;> simp

theorem steps_secret_eq {es : List Event} (hw : Wf env st s) (hst : Steps env s es s')
    (hs : ∀ loc rem, s.status ≠ .ongoing loc rem) : s'.secret = s.secret := by
  induction hst with
  | refl => rfl
  | call hst op ih => rw [step_secret_eq (hw.steps hst) (steps_over hw hst hs) op, ih]
  | cloned hst hc ih =>
    obtain ⟨-, rfl⟩ := tryClone_iff.mp hc
    exact ih

end Pkstl
