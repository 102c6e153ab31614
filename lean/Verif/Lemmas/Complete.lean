import Verif.Spec.Complete
import Verif.Spec.Window
import Verif.Lemmas.Trace
/- Every history of a `SecureLayer` is a history of the `MinimalSecureLayer` inside. -/
namespace Pkstl
open Spec

variable {M : Type} {env : Env} {f : Features}

/-- A message of the complete mode is the decompressed form of a message of the minimal mode. -/
inductive Opens (cr : Crypto) : Message → BinMessage → Prop where
  | connect {a k : Bytes} {d d' : Option Bytes} (h : SecureLayer.uncompressOpt cr d = .ok d') :
      Opens cr (.connect a k d) (.connect d' k)
  | ack {d d' : Option Bytes} (h : SecureLayer.uncompressOpt cr d = .ok d') : Opens cr (.ack d) (.ack d')
  | message {d d' : Option Bytes} (h : SecureLayer.uncompressOpt cr d = .ok d') :
      Opens cr (.message d) (.message d')

/-- How the calls on the layer inside relate to the call on the complete layer. -/
structure Lowers (cr : Crypto) (f : Features) (e : CEvent M) (es : List Event) : Prop where
  inp : inputs es = e.input
  con : es.countP Event.createsConnect = if e.consumesConnect then 1 else 0
  ack : es.countP Event.createsAck = if e.consumesAck then 1 else 0
  wr : es.countP Event.writes = if e.writesUser then 1 else 0
  bin : ∀ b ms, e = .readBin b (.ok ms) → List.Forall₂ (Opens cr) (deliveries es) ms
  ser : ∀ c b ms, e = .readSer c b (.ok ms) →
    ∃ bs, List.Forall₂ (Opens cr) (deliveries es) bs ∧ deserializeMsgs f c bs = .ok ms
  /-- without an ACK, everything handed over comes from the input of this call -/
  now : ∀ b ∈ e.input, (∃ m ∈ deliveries es, isAck m = true) ∨
    ∃ r es', es = .read b r :: es' ∧ deliveries es' = []
  /-- if the call is not a failed `read`, no user message got lost inside the layer -/
  reg : e.readOk = true → ∀ x ∈ es, x.regular
  /-- other calls hand over nothing -/
  quiet : e.input = [] → ∀ x ∈ es, x.delivers = []

theorem steps_one (env : Env) (s : Layer) (op : Op) : Steps env s [(step env s op).2] (step env s op).1 :=
  Steps.call (.refl s) op

theorem Spec.Steps.trans {s s' s'' : Layer} {h h' : List Event} (h1 : Steps env s h s')
    (h2 : Steps env s' h' s'') : Steps env s (h ++ h') s'' := by
  induction h2 with
  | refl => simpa using h1
  | call _ op ih => rw [← List.append_assoc]; exact .call ih op
  | cloned _ hc ih => rw [← List.append_assoc]; exact .cloned ih hc

theorem uncompressOpt_ne_panic (cr : Crypto) (d : Option Bytes) (p : Panic) :
    SecureLayer.uncompressOpt cr d ≠ .panic p := by
  unfold SecureLayer.uncompressOpt SecureLayer.uncompress
  cases d with
  | none => simp
  | some b => cases h : cr.inflate b <;> simp [h]

theorem uncompressUserMsgs_ok {cr : Crypto} (ms : List Message) (acc out : List BinMessage)
    (hm : ∀ m ∈ ms, ∃ d, m = .message d) (h : SecureLayer.uncompressUserMsgs cr ms acc = .ok out) :
    ∃ l, out = acc ++ l ∧ List.Forall₂ (Opens cr) ms l := by
  induction ms generalizing acc with
  | nil =>
    simp [SecureLayer.uncompressUserMsgs] at h
    exact ⟨[], by simp [h]⟩
  | cons m ms ih =>
    obtain ⟨d, rfl⟩ := hm m (by simp)
    unfold SecureLayer.uncompressUserMsgs at h
    cases hd : SecureLayer.uncompressOpt cr d with
    | err e => rw [hd] at h; simp at h
    | panic p => rw [hd] at h; simp at h
    | ok d' =>
      rw [hd] at h
      obtain ⟨l, rfl, hl⟩ := ih _ (fun m hm' => hm m (by simp [hm'])) h
      exact ⟨.message d' :: l, by simp, .cons (.message hd) hl⟩

theorem serialize_err {c : Codec M} {m : M} {fmt : MessageFormat} {e : Error} (h : serialize c m fmt = .err e) :
    ∃ x, e = .serdeError x := by
  unfold serialize serializeInner at h
  cases fmt <;> simp only at h
  · simp at h; exact ⟨_, h.symm⟩
  · simp at h
  · cases hj : c.jsonSer m <;> simp [hj, codecRes] at h; exact ⟨_, h.symm⟩
  · cases hj : c.cborSer m <;> simp [hj, codecRes] at h; exact ⟨_, h.symm⟩
  · cases hj : c.binSer m <;> simp [hj, codecRes] at h; exact ⟨_, h.symm⟩

theorem serializeOpt_err {cr : Crypto} {c : Codec M} {sl : SecureLayer} {d : Option M} {e : Error}
    (h : SecureLayer.serializeOpt cr c sl d = .err e) : ∃ x, e = .serdeError x := by
  cases d with
  | none => simp [SecureLayer.serializeOpt] at h
  | some m =>
    unfold SecureLayer.serializeOpt at h
    dsimp only at h
    cases hs : serialize c m sl.minimal.config.messageFormat with
    | ok b => rw [hs] at h; simp at h
    | err e' => rw [hs] at h; simp at h; subst h; exact serialize_err hs
    | panic p => rw [hs] at h; simp at h

section
variable {st : Start}

theorem takeAck_delivers {s : Layer} (h : Wf env st s) (hs : s.status ≠ .success) {m : Message}
    (hm : (s.takeAck env).2 = .ok (some m)) : ∃ d, m = .ack d := by
  have heff := step_effect h .takeAck
  simp only [step, hm] at heff
  generalize (s.takeAck env).1.status = b at heff
  generalize ha : s.status = a at heff hs
  cases heff with
  | quiet hb h1 h2 h3 =>
    obtain ⟨d, -, h4⟩ := h3 m (by simp [Event.delivers])
    exact absurd h4 hs
  | acceptsConnect h => exact False.elim h
  | acceptsAck h h3 h4 =>
    have := h3 m (by simp [Event.delivers])
    cases m <;> simp [isAck] at this
    exact ⟨_, rfl⟩

theorem drain_delivers {s : Layer} (h : Wf env st s) {ms : List Message}
    (hm : (s.drainTmpStack env).2 = .ok ms) : ∀ m ∈ ms, ∃ d, m = .message d := by
  have heff := step_effect h .drain
  simp only [step, hm] at heff
  generalize (s.drainTmpStack env).1.status = b at heff
  generalize ha : s.status = a at heff
  intro m hmem
  cases heff with
  | quiet hb h1 h2 h3 =>
    obtain ⟨d, h4, -⟩ := h3 m (by simpa [Event.delivers] using hmem)
    exact ⟨d, h4⟩
  | acceptsConnect h => exact False.elim h
  | acceptsAck h h3 h4 => exact False.elim h

/-- After a delivered CONNECT the layer is not negotiated yet. -/
theorem read_connect_status {s : Layer} (h : Wf env st s) {b a k : Bytes} {d : Option Bytes}
    (hm : (s.read env b).2 = .ok (some (.connect a k d))) : (s.read env b).1.status ≠ .success := by
  have heff := step_effect h (.read b)
  simp only [step, hm] at heff
  generalize (s.read env b).1.status = b' at heff
  generalize ha : s.status = a' at heff
  cases heff with
  | quiet hb h1 h2 h3 =>
    obtain ⟨d, h4, -⟩ := h3 (.connect a k d) (by simp [Event.delivers])
    simp at h4
  | acceptsConnect h => simp
  | acceptsAck h h3 h4 =>
    have := h3 (.connect a k d) (by simp [Event.delivers])
    simp [isAck] at this

/-- `read_bin` is `read`, possibly followed by `take_ack_msg_recv_too_early` or `drain_tmp_stack_user_msgs`. -/
theorem readBin_lower {sl : SecureLayer} (h : Wf env st sl.minimal) (b : Bytes) :
    ∃ es, Steps env sl.minimal es (sl.readBin env b).1.minimal ∧ (sl.readBin env b).1.sigSeed = sl.sigSeed ∧
      inputs es = [b] ∧ es.countP Event.createsConnect = 0 ∧ es.countP Event.createsAck = 0 ∧
      es.countP Event.writes = 0 ∧
      ((∃ m ∈ deliveries es, isAck m = true) ∨ ∃ r es', es = .read b r :: es' ∧ deliveries es' = []) ∧
      ∀ ms, (sl.readBin env b).2 = .ok ms → List.Forall₂ (Opens env.cr) (deliveries es) ms ∧ ∀ x ∈ es, x.regular := by
  have h1 := steps_one env sl.minimal (.read b)
  have hw1 := h.read b
  have hcs := fun a k d => read_connect_status (b := b) (a := a) (k := k) (d := d) h
  unfold SecureLayer.readBin
  simp only [step] at h1
  rcases hrd : sl.minimal.read env b with ⟨m, r⟩
  rw [hrd] at h1 hw1 hcs
  simp only at h1 hw1 hcs
  have base : ∀ r' : Res (List BinMessage), (∀ ms, r' ≠ .ok ms) →
      ∃ es, Steps env sl.minimal es ({ sl with minimal := m } : SecureLayer).minimal ∧
        ({ sl with minimal := m } : SecureLayer).sigSeed = sl.sigSeed ∧ inputs es = [b] ∧
        es.countP Event.createsConnect = 0 ∧ es.countP Event.createsAck = 0 ∧ es.countP Event.writes = 0 ∧
        ((∃ m ∈ deliveries es, isAck m = true) ∨ ∃ r es', es = .read b r :: es' ∧ deliveries es' = []) ∧
        ∀ ms, r' = .ok ms → List.Forall₂ (Opens env.cr) (deliveries es) ms ∧ ∀ x ∈ es, x.regular := by
    intro r' hr'
    exact ⟨_, h1, rfl, rfl, rfl, rfl, rfl, .inr ⟨_, [], rfl, rfl⟩, fun ms he => absurd he (hr' ms)⟩
  rcases r with (_ | mm) | e | p
  · exact ⟨_, h1, rfl, rfl, rfl, rfl, rfl, .inr ⟨_, [], rfl, rfl⟩, by simp [deliveries, Event.delivers, Event.regular]⟩
  · cases mm with
    | connect algo k d =>
      dsimp only
      cases hu : SecureLayer.uncompressOpt env.cr d with
      | err e => exact base _ (by simp)
      | panic p => exact base _ (by simp)
      | ok cd =>
        dsimp only
        have h2 := steps_one env m .takeAck
        have hta := fun mm => takeAck_delivers (env := env) hw1 (hcs _ _ _ rfl) (m := mm)
        simp only [step] at h2
        rcases hrt : m.takeAck env with ⟨m2, r2⟩
        rw [hrt] at h2 hta
        simp only at h2 hta
        have h3 := h1.trans h2
        have base2 : ∀ r' : Res (List BinMessage), (∀ ms, r' ≠ .ok ms) → ((∃ d, r2 = .ok (some (.ack d))) ∨ Event.delivers (.takeAck r2) = []) →
            ∃ es, Steps env sl.minimal es ({ sl with minimal := m2 } : SecureLayer).minimal ∧
              ({ sl with minimal := m2 } : SecureLayer).sigSeed = sl.sigSeed ∧ inputs es = [b] ∧
              es.countP Event.createsConnect = 0 ∧ es.countP Event.createsAck = 0 ∧ es.countP Event.writes = 0 ∧
              ((∃ m ∈ deliveries es, isAck m = true) ∨ ∃ r es', es = .read b r :: es' ∧ deliveries es' = []) ∧
              ∀ ms, r' = .ok ms → List.Forall₂ (Opens env.cr) (deliveries es) ms ∧ ∀ x ∈ es, x.regular := by
          intro r' hr' hr2
          refine ⟨_, h3, rfl, rfl, rfl, rfl, rfl, ?_, fun ms he => absurd he (hr' ms)⟩
          rcases hr2 with ⟨d, rfl⟩ | hr2
          · exact .inl ⟨.ack d, by simp [deliveries, Event.delivers], rfl⟩
          · exact .inr ⟨_, _, rfl, by simp [deliveries, hr2]⟩
        rcases r2 with (_ | mm) | e | p
        · refine ⟨_, h3, rfl, rfl, rfl, rfl, rfl, .inr ⟨_, _, rfl, rfl⟩, ?_⟩
          intro ms hms
          simp only [Res.ok.injEq] at hms
          subst hms
          exact ⟨.cons (.connect hu) .nil, by simp [Event.regular]⟩
        · obtain ⟨d2, rfl⟩ := hta _ rfl
          dsimp only
          cases hu2 : SecureLayer.uncompressOpt env.cr d2 with
          | err e => exact base2 _ (by simp) (.inl ⟨_, rfl⟩)
          | panic p => exact base2 _ (by simp) (.inl ⟨_, rfl⟩)
          | ok ad =>
            refine ⟨_, h3, rfl, rfl, rfl, rfl, rfl, .inl ⟨.ack d2, by simp [deliveries, Event.delivers], rfl⟩, ?_⟩
            intro ms hms
            simp only [Res.ok.injEq] at hms
            subst hms
            exact ⟨.cons (.connect hu) (.cons (.ack hu2) .nil), by simp [Event.regular]⟩
        · exact base2 _ (by simp) (.inr rfl)
        · exact base2 _ (by simp) (.inr rfl)
    | ack d =>
      dsimp only
      cases hu : SecureLayer.uncompressOpt env.cr d with
      | err e => exact base _ (by simp)
      | panic p => exact base _ (by simp)
      | ok cd =>
        dsimp only
        have h2 := steps_one env m .drain
        have hdd := fun ms => drain_delivers (env := env) hw1 (ms := ms)
        simp only [step] at h2
        rcases hrt : m.drainTmpStack env with ⟨m2, r2⟩
        rw [hrt] at h2 hdd
        simp only at h2 hdd
        have h3 := h1.trans h2
        rcases r2 with ms2 | e | p
        · refine ⟨_, h3, rfl, rfl, rfl, rfl, rfl, .inl ⟨.ack d, by simp [deliveries, Event.delivers], rfl⟩, ?_⟩
          intro ms hms
          obtain ⟨l, rfl, hl⟩ := uncompressUserMsgs_ok ms2 _ _ (hdd _ rfl) hms
          exact ⟨by simpa [deliveries, Event.delivers] using And.intro (Opens.ack hu) hl, by simp [Event.regular]⟩
        · exact ⟨_, h3, rfl, rfl, rfl, rfl, rfl, .inl ⟨.ack d, by simp [deliveries, Event.delivers], rfl⟩, by simp⟩
        · exact ⟨_, h3, rfl, rfl, rfl, rfl, rfl, .inl ⟨.ack d, by simp [deliveries, Event.delivers], rfl⟩, by simp⟩
    | message d =>
      dsimp only
      cases hu : SecureLayer.uncompressOpt env.cr d with
      | err e => exact base _ (by simp)
      | panic p => exact base _ (by simp)
      | ok cd =>
        refine ⟨_, h1, rfl, rfl, rfl, rfl, rfl, .inr ⟨_, [], rfl, rfl⟩, ?_⟩
        intro ms hms
        simp only [Res.ok.injEq] at hms
        subst hms
        exact ⟨.cons (.message hu) .nil, by simp [Event.regular]⟩
  · exact base _ (by simp)
  · exact base _ (by simp)

/-- `writeSigned` succeeds or reports `BufferFlushError`. -/
theorem writeSigned_res (cr : Crypto) (seed b : Bytes) (w : BufW) :
    (SecureLayer.writeSigned cr seed b w).2 = .ok () ∨
    (SecureLayer.writeSigned cr seed b w).2 = .err .bufferFlushError := by
  unfold SecureLayer.writeSigned SecureLayer.signAndWriteSig
  rcases w.write b with ⟨w1, e | n⟩
  · exact .inr rfl
  · dsimp only
    rcases w1.write (cr.edSign seed b) with ⟨w2, e | n⟩
    · exact .inr rfl
    · exact .inl rfl

/-- Writing a CONNECT: nothing happens, or the layer inside creates it and it is handed to the writer. -/
theorem writeConnectRaw_cases (env : Env) (sl : SecureLayer) (d : Option Bytes) (w : BufW) :
    (sl.sigSeed = none ∧ sl.writeConnectRaw env d w = (sl, w, .err .connectMsgAlreadyWritten)) ∨
    (∃ seed, sl.sigSeed = some seed ∧ (∀ rem, sl.minimal.status ≠ .ongoing .created rem) ∧
      sl.writeConnectRaw env d w = (sl, w,
        .err (if sl.minimal.status = .fail then .connectionHadFail else .connectMsgAlreadyWritten))) ∨
    (∃ seed rem, sl.sigSeed = some seed ∧ sl.minimal.status = .ongoing .created rem ∧
      sl.writeConnectRaw env d w =
        ({ sl with minimal := { sl.minimal with status := .ongoing .connectMsgSent rem } },
          (SecureLayer.writeSigned env.cr seed
            (connectFrame sl.minimal.ephemeralPubkey (env.cr.edPublic seed) (d.getD [])) w).1,
          (SecureLayer.writeSigned env.cr seed
            (connectFrame sl.minimal.ephemeralPubkey (env.cr.edPublic seed) (d.getD [])) w).2)) := by
  unfold SecureLayer.writeConnectRaw
  cases hs : sl.sigSeed with
  | none => exact .inl ⟨rfl, rfl⟩
  | some seed =>
    right
    rcases createConnect_cases env sl.minimal (env.cr.edPublic seed) d with ⟨rem, h1, h2⟩ | ⟨h1, h2⟩
    · right
      refine ⟨seed, rem, rfl, h1, ?_⟩
      dsimp only
      rw [h2]
    · left
      refine ⟨seed, rfl, h1, ?_⟩
      dsimp only
      rw [h2]
      cases sl; simp_all

/-- Writing an ACK: nothing happens, or the layer inside creates it and it is handed to the writer. -/
theorem writeAckRaw_cases {sl : SecureLayer} (hw : Wf env st sl.minimal) (d : Option Bytes) (w : BufW) :
    (sl.sigSeed = none ∧ sl.writeAckRaw env d w = (sl, w, .err .connectMsgAlreadyWritten)) ∨
    (∃ seed, sl.sigSeed = some seed ∧ (∀ loc, sl.minimal.status ≠ .ongoing loc .validConnectMsgReceived) ∧
      sl.writeAckRaw env d w = (sl, w,
        .err (if sl.minimal.status = .fail then .connectionHadFail else .forbidWriteAckMsgNow))) ∨
    (∃ seed loc epk, sl.sigSeed = some seed ∧ sl.minimal.status = .ongoing loc .validConnectMsgReceived ∧
      sl.minimal.peerEpk = some epk ∧
      sl.writeAckRaw env d w =
        ({ sl with minimal := { sl.minimal with status := if loc = .validAckMsgReceived then .success else .ongoing loc .ackMsgSent } },
          (SecureLayer.writeSigned env.cr seed (ackFrame (env.cr.sha256 epk) (d.getD [])) w).1,
          (SecureLayer.writeSigned env.cr seed (ackFrame (env.cr.sha256 epk) (d.getD [])) w).2)) := by
  unfold SecureLayer.writeAckRaw
  cases hs : sl.sigSeed with
  | none => exact .inl ⟨rfl, rfl⟩
  | some seed =>
    right
    rcases createAck_cases env sl.minimal d with ⟨loc, h1, h2⟩ | ⟨h1, h2⟩
    · right
      obtain ⟨epk, he⟩ := Option.ne_none_iff_exists'.mp (hw.past _ _ h1 (by simp)).1
      refine ⟨seed, loc, epk, rfl, h1, he, ?_⟩
      dsimp only
      rw [h2, he]
    · left
      refine ⟨seed, rfl, h1, ?_⟩
      dsimp only
      rw [h2]
      cases sl; simp_all

theorem connectRaw_lower {sl : SecureLayer} (d : Option Bytes) (w : BufW) :
    ∃ es, Steps env sl.minimal es (sl.writeConnectRaw env d w).1.minimal ∧
      (sl.writeConnectRaw env d w).1.sigSeed = sl.sigSeed ∧ inputs es = [] ∧
      es.countP Event.createsConnect =
        (if (sl.writeConnectRaw env d w).2.2 = .ok () ∨ (sl.writeConnectRaw env d w).2.2 = .err .bufferFlushError
         then 1 else 0) ∧
      es.countP Event.createsAck = 0 ∧ es.countP Event.writes = 0 ∧ ∀ x ∈ es, x.regular ∧ x.delivers = [] := by
  rcases writeConnectRaw_cases env sl d w with ⟨-, he⟩ | ⟨seed, -, -, he⟩ | ⟨seed, rem, hs, h1, he⟩ <;> rw [he]
  · exact ⟨[], .refl _, rfl, rfl, by simp, rfl, rfl, by simp⟩
  · exact ⟨[], .refl _, rfl, rfl, by split <;> simp, rfl, rfl, by simp⟩
  · have h2 := steps_one env sl.minimal (.connect (env.cr.edPublic seed) d)
    rcases createConnect_cases env sl.minimal (env.cr.edPublic seed) d with ⟨rem', h3, h4⟩ | ⟨h3, -⟩
    swap
    · exact absurd h1 (h3 rem)
    rw [h1] at h3
    simp only [Status.ongoing.injEq, true_and] at h3
    subst h3
    simp only [step, h4] at h2
    refine ⟨_, h2, rfl, rfl, ?_, rfl, rfl, by simp [step, Event.regular, Event.delivers]⟩
    have := writeSigned_res env.cr seed (connectFrame sl.minimal.ephemeralPubkey (env.cr.edPublic seed) (d.getD [])) w
    simp [this, Event.createsConnect]

theorem ackRaw_lower {sl : SecureLayer} (hw : Wf env st sl.minimal) (d : Option Bytes) (w : BufW) :
    ∃ es, Steps env sl.minimal es (sl.writeAckRaw env d w).1.minimal ∧
      (sl.writeAckRaw env d w).1.sigSeed = sl.sigSeed ∧ inputs es = [] ∧
      es.countP Event.createsAck =
        (if (sl.writeAckRaw env d w).2.2 = .ok () ∨ (sl.writeAckRaw env d w).2.2 = .err .bufferFlushError
         then 1 else 0) ∧
      es.countP Event.createsConnect = 0 ∧ es.countP Event.writes = 0 ∧ ∀ x ∈ es, x.regular ∧ x.delivers = [] := by
  rcases writeAckRaw_cases hw d w with ⟨-, he⟩ | ⟨seed, -, -, he⟩ | ⟨seed, loc, epk, hs, h1, hp, he⟩ <;> rw [he]
  · exact ⟨[], .refl _, rfl, rfl, by simp, rfl, rfl, by simp⟩
  · exact ⟨[], .refl _, rfl, rfl, by split <;> simp, rfl, rfl, by simp⟩
  · have h2 := steps_one env sl.minimal (.ack d)
    rcases createAck_cases env sl.minimal d with ⟨loc', h3, h4⟩ | ⟨h3, -⟩
    swap
    · exact absurd h1 (h3 loc)
    rw [h1] at h3
    simp only [Status.ongoing.injEq, and_true] at h3
    subst h3
    rw [show (step env sl.minimal (.ack d)).2 = .ack d (.ok (ackFrame (env.cr.sha256 epk) (d.getD []))) by
      simp [step, h4, hp]] at h2
    simp only [step, h4] at h2
    refine ⟨[.ack d (.ok (ackFrame (env.cr.sha256 epk) (d.getD [])))], h2, rfl, rfl, ?_, rfl, rfl, by simp [step, Event.regular, Event.delivers]⟩
    have := writeSigned_res env.cr seed (ackFrame (env.cr.sha256 epk) (d.getD [])) w
    simp [this, Event.createsAck]

theorem writeRaw_lower {sl : SecureLayer} (d : Bytes) (w : BufW) :
    ∃ es, Steps env sl.minimal es (sl.writeBinRaw env d w).1.minimal ∧
      (sl.writeBinRaw env d w).1.sigSeed = sl.sigSeed ∧ inputs es = [] ∧
      es.countP Event.writes = (if (sl.writeBinRaw env d w).2.2 = .ok () then 1 else 0) ∧
      es.countP Event.createsConnect = 0 ∧ es.countP Event.createsAck = 0 ∧ ∀ x ∈ es, x.regular ∧ x.delivers = [] := by
  have h2 := steps_one env sl.minimal (.write d w)
  refine ⟨_, h2, rfl, rfl, ?_, rfl, rfl, by simp [step, Event.regular, Event.delivers]⟩
  show _ = if (sl.minimal.writeMessage env d w).2.2 = .ok () then 1 else 0
  rcases hr : (sl.minimal.writeMessage env d w).2.2 with u | e | p <;> simp [step, hr, Event.writes]

/-- One call on the complete layer is a sequence of calls on the layer inside. -/
theorem cstep_lower {sl : SecureLayer} (hw : Wf env st sl.minimal) (op : COp M) :
    ∃ es, Steps env sl.minimal es (cstep env f sl op).1.minimal ∧ (cstep env f sl op).1.sigSeed = sl.sigSeed ∧
      Lowers env.cr f (cstep env f sl op).2 es := by
  cases op with
  | readBin b =>
    obtain ⟨es, h1, h2, h3, h4, h5, h6, h8, h7⟩ := readBin_lower hw b
    refine ⟨es, h1, h2, h3, h4, h5, h6, ?_, ?_, by simpa [cstep, CEvent.input] using h8, ?_, by simp [cstep, CEvent.input]⟩
    · intro b' ms he
      simp only [cstep, CEvent.readBin.injEq] at he
      exact (h7 ms he.2).1
    · intro c b' ms he
      simp [cstep] at he
    · intro hok
      simp only [cstep, CEvent.readOk] at hok
      rcases hb : (sl.readBin env b).2 with ms | e | p
      · exact (h7 ms hb).2
      · rw [hb] at hok; cases hok
      · rw [hb] at hok; cases hok
  | readSer c b =>
    obtain ⟨es, h1, h2, h3, h4, h5, h6, h8, h7⟩ := readBin_lower hw b
    have e1 : (sl.readSer env f c b).1 = (sl.readBin env b).1 := by
      unfold SecureLayer.readSer
      rcases sl.readBin env b with ⟨sl', ms | e | p⟩ <;> rfl
    refine ⟨es, ?_, ?_, h3, h4, h5, h6, ?_, ?_, by simpa [cstep, CEvent.input] using h8, ?_, by simp [cstep, CEvent.input]⟩
    · simpa only [cstep, e1] using h1
    · simpa only [cstep, e1] using h2
    · intro b' ms he
      simp [cstep] at he
    · intro c' b' ms he
      simp only [cstep, CEvent.readSer.injEq] at he
      obtain ⟨rfl, rfl, he⟩ := he
      unfold SecureLayer.readSer at he
      rcases hb : sl.readBin env b with ⟨sl', ms' | e | p⟩ <;> rw [hb] at he h7
      · exact ⟨ms', (h7 _ rfl).1, he⟩
      · simp at he
      · simp at he
    · intro hok
      simp only [cstep, CEvent.readOk, SecureLayer.readSer] at hok
      rcases hb : sl.readBin env b with ⟨sl', ms' | e | p⟩
      · exact (h7 ms' (by rw [hb])).2
      · rw [hb] at hok; cases hok
      · rw [hb] at hok; cases hok
  | connectBin d w =>
    obtain ⟨es, h1, h2, h3, h4, h5, h6, h9⟩ := connectRaw_lower (env := env) (sl := sl) (d.map (sl.compress env.cr)) w
    exact ⟨es, h1, h2, h3, by simpa [cstep, CEvent.consumesConnect, SecureLayer.writeConnectBin] using h4, h5, h6,
      by simp [cstep], by simp [cstep], by simp [cstep, CEvent.input], fun _ x hx => (h9 x hx).1, fun _ x hx => (h9 x hx).2⟩
  | ackBin d w =>
    obtain ⟨es, h1, h2, h3, h4, h5, h6, h9⟩ := ackRaw_lower hw (d.map (sl.compress env.cr)) w
    exact ⟨es, h1, h2, h3, h5, by simpa [cstep, CEvent.consumesAck, SecureLayer.writeAckBin] using h4, h6,
      by simp [cstep], by simp [cstep], by simp [cstep, CEvent.input], fun _ x hx => (h9 x hx).1, fun _ x hx => (h9 x hx).2⟩
  | connectSer c d w =>
    simp only [cstep, SecureLayer.writeConnectSer]
    cases hs : SecureLayer.serializeOpt env.cr c sl d with
    | ok d' =>
      obtain ⟨es, h1, h2, h3, h4, h5, h6, h9⟩ := connectRaw_lower (env := env) (sl := sl) d' w
      exact ⟨es, h1, h2, h3, by simpa [CEvent.consumesConnect] using h4, h5, h6, by simp, by simp, by simp [CEvent.input], fun _ x hx => (h9 x hx).1, fun _ x hx => (h9 x hx).2⟩
    | err e =>
      refine ⟨[], .refl _, rfl, rfl, ?_, rfl, rfl, by simp, by simp, by simp [CEvent.input], by simp [step, Event.regular], by simp [step, Event.delivers]⟩
      have : e ≠ .bufferFlushError := by
        obtain ⟨x, rfl⟩ := serializeOpt_err hs
        simp
      simp [CEvent.consumesConnect, this]
    | panic p => exact ⟨[], .refl _, rfl, rfl, by simp [CEvent.consumesConnect], rfl, rfl, by simp, by simp, by simp [CEvent.input], by simp [step, Event.regular], by simp [step, Event.delivers]⟩
  | ackSer c d w =>
    simp only [cstep, SecureLayer.writeAckSer]
    cases hs : SecureLayer.serializeOpt env.cr c sl d with
    | ok d' =>
      obtain ⟨es, h1, h2, h3, h4, h5, h6, h9⟩ := ackRaw_lower hw d' w
      exact ⟨es, h1, h2, h3, h5, by simpa [CEvent.consumesAck] using h4, h6, by simp, by simp, by simp [CEvent.input], fun _ x hx => (h9 x hx).1, fun _ x hx => (h9 x hx).2⟩
    | err e =>
      refine ⟨[], .refl _, rfl, rfl, rfl, ?_, rfl, by simp, by simp, by simp [CEvent.input], by simp [step, Event.regular], by simp [step, Event.delivers]⟩
      have : e ≠ .bufferFlushError := by
        obtain ⟨x, rfl⟩ := serializeOpt_err hs
        simp
      simp [CEvent.consumesAck, this]
    | panic p => exact ⟨[], .refl _, rfl, rfl, rfl, by simp [CEvent.consumesAck], rfl, by simp, by simp, by simp [CEvent.input], by simp [step, Event.regular], by simp [step, Event.delivers]⟩
  | writeBin d w =>
    obtain ⟨es, h1, h2, h3, h4, h5, h6, h9⟩ := writeRaw_lower (env := env) (sl := sl) (sl.compress env.cr d) w
    exact ⟨es, h1, h2, h3, h5, h6, by simpa [cstep, CEvent.writesUser, SecureLayer.writeBin] using h4,
      by simp [cstep], by simp [cstep], by simp [cstep, CEvent.input], fun _ x hx => (h9 x hx).1, fun _ x hx => (h9 x hx).2⟩
  | writeSer c m w =>
    simp only [cstep, SecureLayer.writeSer]
    cases hs : serialize c m sl.minimal.config.messageFormat with
    | ok b =>
      obtain ⟨es, h1, h2, h3, h4, h5, h6, h9⟩ := writeRaw_lower (env := env) (sl := sl) (sl.compress env.cr b) w
      exact ⟨es, h1, h2, h3, h5, h6, by simpa [CEvent.writesUser] using h4, by simp, by simp, by simp [CEvent.input], fun _ x hx => (h9 x hx).1, fun _ x hx => (h9 x hx).2⟩
    | err e => exact ⟨[], .refl _, rfl, rfl, rfl, rfl, by simp [CEvent.writesUser], by simp, by simp, by simp [CEvent.input], by simp [step, Event.regular], by simp [step, Event.delivers]⟩
    | panic p => exact ⟨[], .refl _, rfl, rfl, rfl, rfl, by simp [CEvent.writesUser], by simp, by simp, by simp [CEvent.input], by simp [step, Event.regular], by simp [step, Event.delivers]⟩
  | clone =>
    have h2 := steps_one env sl.minimal .clone
    have e1 : sl.tryClone.1 = { sl with minimal := sl.minimal.tryClone.1 } := by
      unfold SecureLayer.tryClone
      rcases sl.minimal.tryClone with ⟨m, c | e | p⟩ <;> rfl
    refine ⟨[(step env sl.minimal .clone).2], ?_, ?_, rfl, rfl, rfl, rfl, by simp [cstep], by simp [cstep], by simp [cstep, CEvent.input], by simp [step, Event.regular], by simp [step, Event.delivers]⟩
    · simp only [cstep, e1]
      exact h2
    · simp only [cstep, e1]
  | config c =>
    have h2 := steps_one env sl.minimal (.config c)
    exact ⟨_, h2, rfl, rfl, rfl, rfl, rfl, by simp [cstep], by simp [cstep], by simp [cstep, CEvent.input], by simp [step, Event.regular], by simp [step, Event.delivers]⟩

theorem ctryClone_ok {sl c : SecureLayer} (hc : sl.tryClone.2 = .ok c) :
    ∃ m, sl.minimal.tryClone.2 = .ok m ∧ c = ⟨m, none⟩ := by
  unfold SecureLayer.tryClone at hc
  rcases hm : sl.minimal.tryClone with ⟨m, c' | e | p⟩ <;> rw [hm] at hc <;> simp at hc
  exact ⟨c', rfl, hc.symm⟩

end

/-- The calls on the layer inside for a whole history. -/
inductive LowersAll (cr : Crypto) (f : Features) : List (CEvent M) → List Event → Prop where
  | nil : LowersAll cr f [] []
  | snoc {h : List (CEvent M)} {l es : List Event} {e : CEvent M} (hl : LowersAll cr f h l)
      (he : Lowers cr f e es) : LowersAll cr f (h ++ [e]) (l ++ es)

theorem lowers_clone (cr : Crypto) : Lowers cr f (.clone (.ok ()) : CEvent M) [.clone (.ok ())] :=
  ⟨rfl, rfl, rfl, rfl, by simp, by simp, by simp [CEvent.input], by simp [Event.regular], by simp [Event.delivers]⟩

/-- Every history of a complete layer is a history of the layer inside. -/
theorem Spec.CRun.lower {st : CStart} {h : List (CEvent M)} {sl : SecureLayer} (hr : CRun env f st h sl) :
    (∃ l, Run env st.inner l sl.minimal ∧ LowersAll env.cr f h l) ∧
      (sl.sigSeed = some st.sigSeed ∨ sl.sigSeed = none) := by
  induction hr with
  | @init sl h =>
    unfold SecureLayer.create at h
    cases hm : Layer.create env.cr st.config st.expected (some st.random) with
    | ok m =>
      have : sl = ⟨m, some st.sigSeed⟩ := by
        unfold CStart.sigSeed
        cases hs : st.seed <;> simp [hm, hs] at h <;> rw [← h] <;> rfl
      subst this
      exact ⟨⟨[], .init hm, .nil⟩, .inl rfl⟩
    | err e => cases hs : st.seed <;> simp [hm, hs] at h
    | panic p => cases hs : st.seed <;> simp [hm, hs] at h
  | @call h sl hr op ih =>
    obtain ⟨⟨l, hl, ha⟩, hs⟩ := ih
    obtain ⟨es, h1, h2, h3⟩ := cstep_lower (f := f) (Wf.of_run hl) op
    exact ⟨⟨l ++ es, hl.steps h1, .snoc ha h3⟩, by rw [h2]; exact hs⟩
  | @cloned h sl c hr hc ih =>
    obtain ⟨⟨l, hl, ha⟩, hs⟩ := ih
    obtain ⟨m, hm, rfl⟩ := ctryClone_ok hc
    exact ⟨⟨_, .cloned hl hm, .snoc ha (lowers_clone _)⟩, .inr rfl⟩

theorem Spec.CRun.wf {st : CStart} {h : List (CEvent M)} {sl : SecureLayer} (hr : CRun env f st h sl) :
    Wf env st.inner sl.minimal := by
  obtain ⟨⟨l, hl, -⟩, -⟩ := hr.lower
  exact Wf.of_run hl

theorem Spec.CRun.steps {st : CStart} {h h' : List (CEvent M)} {s s' : SecureLayer} (hr : CRun env f st h s)
    (hs : CSteps env f s h' s') : CRun env f st (h ++ h') s' := by
  induction hs with
  | refl => simpa using hr
  | call _ op ih => rw [← List.append_assoc]; exact .call ih op
  | cloned _ hc ih => rw [← List.append_assoc]; exact .cloned ih hc

end Pkstl
