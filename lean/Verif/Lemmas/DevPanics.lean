import Verif.Lemmas.PanicRead
/- Which panics a call can end in. -/
namespace Pkstl
open Spec

section
variable {env : Env} {st : Start} {s : Layer}

/-- The panics caused by input alone. -/
def InputPanic (p : Panic) : Prop := p = .sliceIndex ∨ p = .drainRange ∨ p = .overflow

theorem getMessage_inputPanic {d : DecryptedIncomingData} {p : Panic} (h : Layer.getMessage d = .panic p) :
    InputPanic p := .inr (.inl (getMessage_panic h).1)

theorem updateNonces_inputPanic {n : Nat} {s' : Layer} {p : Panic}
    (h : s.updateNonces env n = (s', .panic p)) : InputPanic p := by
  have adv : ∀ oc O n O' n' p, Layer.advance oc O n = (O', n', .panic p) → p = .overflow := by
    intro oc O n
    fun_induction Layer.advance oc O n with
    | case1 O n hm hn => intro O' n' p h; simp at h; exact h.2.2.symm
    | case2 O n hm m hn ih => exact ih
    | case3 O n hm => intro O' n' p h; simp at h
  unfold Layer.updateNonces at h
  split at h
  · split at h
    · simp at h; exact .inr (.inr h.2.symm)
    · rename_i m _
      rcases ha : Layer.advance env.overflowChecks s.orphanNonces m with ⟨O', n', r⟩
      rw [ha] at h
      simp only [Prod.mk.injEq] at h
      obtain ⟨-, rfl⟩ := h
      exact .inr (.inr (adv _ _ _ _ _ _ ha))
  · split at h <;> simp at h

theorem readInner_inputPanic (hkp : ∀ loc, s.status = .ongoing loc .waitConnectMsg → s.ephemeralKp ≠ none)
    {inc : Bytes} {chk : Bool} {p : Panic}
    (hr : (s.readInner env inc chk).2 = .panic p) : InputPanic p := by
  have hcase := readInner_case env s inc chk
  rw [hr] at hcase
  generalize (s.readInner env inc chk).1 = s' at hcase
  generalize hrr : (Res.panic p : Res (Option Message)) = r at hcase
  cases hcase with
  | parsePanic hp =>
    simp only [Res.panic.injEq] at hrr
    subst hrr
    rcases readerRead_panic hp with h | h
    · exact .inl h
    · exact .inr (.inr h)
  | parseErr hp => simp at hrr
  | connectKey hp hh hk hne => simp at hrr
  | connectShort hp hh hk hl => simp only [Res.panic.injEq] at hrr; exact .inl hrr
  | connectBadSig hp hh hk hl hv => simp [invalidMsg] at hrr
  | connectLate hp hh hk hl hv hs he => simp at hrr
  | connectNoKp hp hh hk hl hv hs hkp' => exact absurd hkp' (hkp _ hs)
  | connectNoAgreement hp hh hk hl hv hs hkp hsec => simp at hrr
  | connectOk hp hh hk hl hv hs hkp hsec => exact getMessage_inputPanic hrr.symm
  | ackChallenge hp hh hc => simp [invalidMsg] at hrr
  | ackStored hp hh hc hk ha => simp at hrr
  | ackTwice hp hh hc hk ha => simp [invalidMsg] at hrr
  | ackShort hp hh hc hk hl => simp only [Res.panic.injEq] at hrr; exact .inl hrr
  | ackBadSig hp hh hc hk hl hv => simp [invalidMsg] at hrr
  | ackLate hp hh hc hk hl hv hs he => simp at hrr
  | ackOk hp hh hc hk hl hv hs => exact getMessage_inputPanic hrr.symm
  | userReplay hp hh hn => simp [invalidMsg] at hrr
  | userLate hp hh hn hs hs' he => simp at hrr
  | userStacked hp hh hn hs => simp at hrr
  | userShort hp hh hn hs hl => simp only [Res.panic.injEq] at hrr; exact .inl hrr
  | userBadHash hp hh hn hs hl hv => simp [invalidMsg] at hrr
  | userNonceErr hp hh hn hs hl hv hu => simp at hrr
  | userNoncePanic hp hh hn hs hl hv hu =>
    simp only [Res.panic.injEq] at hrr
    subst hrr
    exact updateNonces_inputPanic hu
  | userOk hp hh hn hs hl hv hu => exact getMessage_inputPanic hrr.symm

theorem drainLoop_inputPanic (bs : List Bytes) (ms : List Message) (hb : Stackable env bs) {p : Panic}
    (hr : (s.drainLoop env bs ms).2 = .panic p)
    (hkp : ∀ loc, s.status = .ongoing loc .waitConnectMsg → s.ephemeralKp ≠ none) : InputPanic p := by
  induction bs generalizing s ms with
  | nil => simp [Layer.drainLoop] at hr
  | cons b bs ih =>
    obtain ⟨n, d, hp, hh⟩ := hb b (by simp)
    have hb2 : Stackable env bs := fun b hm => hb b (by simp [hm])
    have hkp' : ∀ loc, (s.readInner env b false).1.status = .ongoing loc .waitConnectMsg →
        (s.readInner env b false).1.ephemeralKp ≠ none := by
      intro loc hs
      have h1 := readUser_frame env s d n
      rw [← readInner_stacked s hp hh] at h1
      rw [h1.kp]
      rcases readInner_effect (env := env) hkp b false with ⟨h2 | h2, -⟩ | ⟨loc', d', _, _, _, h3, -⟩ |
        ⟨rem, d', _, _, h3, h4, h5, h6, -⟩
      · exact hkp loc (by rw [← h2]; exact hs)
      · rw [h2] at hs; simp at hs
      · exact hkp _ h3
      · rw [stacked_header hp hh h5, hh] at h6; simp at h6
    unfold Layer.drainLoop at hr
    rcases hq : s.readInner env b false with ⟨s', (_ | m) | e | q⟩ <;> rw [hq] at hr hkp'
    · exact ih ms hb2 hr hkp'
    · exact ih _ hb2 hr hkp'
    · simp at hr
    · simp only [Res.panic.injEq] at hr
      subst hr
      exact readInner_inputPanic hkp (by rw [hq])

/-- How a call can panic. -/
theorem step_panic (h : Wf env st s) (op : Op) {p : Panic} (hp : (step env s op).2.panickedWith p) :
    InputPanic p ∨ (p = .encryptWithoutSecret ∧ s.status = .success ∧ s.secret = none) := by
  cases op with
  | read b => exact .inl (readInner_inputPanic h.wait hp)
  | takeAck =>
    left
    rcases takeAck_cases env s with ⟨-, he⟩ | ⟨b, -, he⟩
    · simp [step, Event.panickedWith, he] at hp
    · simp only [step, Event.panickedWith, he] at hp
      exact readInner_inputPanic (s := { s with ackMsgRecvTooEarly := none }) h.wait hp
  | drain => exact .inl (drainLoop_inputPanic (s := { s with tmpStack := [] }) _ _ h.stackP hp h.wait)
  | connect pk d =>
    rcases createConnect_cases env s pk d with ⟨rem, -, he⟩ | ⟨-, he⟩ <;>
      simp [step, Event.panickedWith, he] at hp
  | ack d =>
    rcases createAck_cases env s d with ⟨loc, hs, he⟩ | ⟨-, he⟩
    · obtain ⟨e, he'⟩ := Option.ne_none_iff_exists'.mp (h.past _ _ hs (by simp)).1
      simp [step, Event.panickedWith, he, he'] at hp
    · simp [step, Event.panickedWith, he] at hp
  | write d w =>
    change (s.writeMessage env d w).2.2 = _ at hp
    rcases writeMessage_cases env s d w with ⟨-, he⟩ | ⟨_, _, -, he⟩ | ⟨h1, h2, he⟩ |
      ⟨h1, k, -, ⟨w', e, -, he⟩ | ⟨w', -, ⟨n, -, he⟩ | ⟨-, he⟩⟩⟩
    · rw [he] at hp; simp at hp
    · rw [he] at hp; simp at hp
    · rw [he] at hp; simp at hp; exact .inr ⟨hp.symm, h1, h2⟩
    · rw [he] at hp; simp at hp
    · rw [he] at hp; simp at hp
    · rw [he] at hp; simp at hp; exact .inl (.inr (.inr hp.symm))
  | clone =>
    simp only [step, Event.panickedWith, Layer.tryClone] at hp
    split at hp <;> simp [unitRes] at hp
  | config c =>
    simp only [step, Event.panickedWith, Layer.changeConfig] at hp
    split at hp <;> simp at hp

end

/-- A layer past CONNECT without a secret has reported a failed agreement. -/
def NoSecret (h : List Event) (s : Layer) : Prop :=
  s.secret = none → (∃ loc, s.status = .ongoing loc .waitConnectMsg) ∨ s.status = .fail ∨
    ∃ inc, Event.read inc (.err .failToComputeAgreement) ∈ h

theorem NoSecret.of_run {env : Env} {st : Start} {h : List Event} {s : Layer} (hr : Run env st h s) :
    NoSecret h s := by
  induction hr with
  | init h =>
    simp only [Layer.create, EphemeralKeyPair.generate, Res.bind_ok, Res.ok.injEq] at h
    subst h
    intro _
    exact .inl ⟨_, rfl⟩
  | @cloned h s c hr hc ih =>
    obtain ⟨h0, rfl⟩ := tryClone_ok hc
    intro hsec
    rcases ih hsec with ⟨loc, h1⟩ | h1 | ⟨inc, h1⟩
    · rw [h1] at h0; simp at h0
    · rw [h1] at h0; simp at h0
    · exact .inr (.inr ⟨inc, by simp [h1]⟩)
  | @call h s hr op ih =>
    have hw := Wf.of_run hr
    intro hsec
    have hsec0 : s.secret = none := by
      cases hs : s.secret with
      | none => rfl
      | some k => rw [(stepFrame hw op).secret k hs] at hsec; simp at hsec
    rcases ih hsec0 with ⟨loc, h1⟩ | h1 | ⟨inc, h1⟩
    rotate_left
    · right; left
      have heff := step_effect hw op
      rw [h1] at heff
      generalize (step env s op).2 = e at heff
      generalize (step env s op).1.status = b at heff ⊢
      generalize ha : Status.fail = a at heff
      cases heff with
      | quiet h => rcases h with h | h <;> simp [h, ← ha]
      | _ => simp at ha
    · exact .inr (.inr ⟨inc, by simp [h1]⟩)
    · have heff := step_effect hw op
      rw [h1] at heff
      generalize he : (step env s op).2 = e at heff
      generalize hb : (step env s op).1.status = b at heff ⊢
      generalize ha : Status.ongoing loc .waitConnectMsg = a at heff
      cases heff with
      | quiet h =>
        rcases h with h | h
        · exact .inl ⟨loc, by rw [h, ← ha]⟩
        · exact .inr (.inl h)
      | createsConnect => simp at ha; exact .inl ⟨_, by rw [ha.2]⟩
      | createsAck => simp at ha
      | @acceptsConnect loc' _ hacc h3 h4 =>
        right; right
        subst he
        cases op with
        | read inc =>
          refine ⟨inc, ?_⟩
          have hcase := readInner_case env s inc true
          change (s.readInner env inc true).1.secret = none at hsec
          change (s.readInner env inc true).1.status = _ at hb
          have hgoal : (s.readInner env inc true).2 = .err .failToComputeAgreement := by
            generalize (s.readInner env inc true).2 = r at hcase
            generalize (s.readInner env inc true).1 = s' at hcase hsec hb
            cases hcase with
            | connectNoAgreement => rfl
            | connectOk => simp at hsec
            | connectNoKp hp hh hk hl hv hs hkp => exact absurd hkp (hw.wait _ hs)
            | userNonceErr hp hh hn hs => rw [h1] at hs; simp at hs
            | userNoncePanic hp hh hn hs => rw [h1] at hs; simp at hs
            | userOk hp hh hn hs => rw [h1] at hs; simp at hs
            | ackOk hp hh hc hk hl hv hs =>
              rw [h1] at hs; simp at hs
              obtain ⟨-, rfl⟩ := hs
              simp at hb
            | _ => first | (rw [h1] at hb; simp at hb) | simp at hb
          exact List.mem_append_right _ (List.mem_singleton.mpr (by
            show _ = Event.read inc (s.readInner env inc true).2
            rw [hgoal]))
        | _ => exact False.elim hacc
      | @acceptsAck rem _ hacc h3 h4 =>
        simp only [Status.ongoing.injEq] at ha
        obtain ⟨-, rfl⟩ := ha
        exact .inl ⟨.validAckMsgReceived, by simp⟩

end Pkstl
