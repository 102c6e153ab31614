import Verif.Lemmas.Wf
/- The effect of one call on the negotiation, as seen in the history. -/
namespace Pkstl
open Spec

/-- Effect of a call (event `e`) on the negotiation status. -/
inductive Effect (cr : Crypto) : Status → Event → Status → Prop where
  /-- nothing negotiated -/
  | quiet {a b : Status} {e : Event} (h : b = a ∨ b = .fail)
      (h1 : e.createsConnect = false) (h2 : e.createsAck = false)
      (h3 : ∀ m ∈ e.delivers, ∃ d, m = .message d ∧ a = .success) : Effect cr a e b
  | createsConnect {rem : RemoteNego} {pk : Bytes} {d : Option Bytes} {b : Bytes} :
      Effect cr (.ongoing .created rem) (.connect pk d (.ok b)) (.ongoing .connectMsgSent rem)
  | createsAck {loc : LocalNego} {d : Option Bytes} {b : Bytes} :
      Effect cr (.ongoing loc .validConnectMsgReceived) (.ack d (.ok b))
        (if loc = .validAckMsgReceived then .success else .ongoing loc .ackMsgSent)
  | acceptsConnect {loc : LocalNego} {e : Event} (h : e.acceptsConnect cr)
      (h3 : ∀ m ∈ e.delivers, isConnect m = true) (h4 : e.delivers.length ≤ 1) :
      Effect cr (.ongoing loc .waitConnectMsg) e (.ongoing loc .validConnectMsgReceived)
  | acceptsAck {rem : RemoteNego} {e : Event} (h : e.acceptsAck cr)
      (h3 : ∀ m ∈ e.delivers, isAck m = true) (h4 : e.delivers.length ≤ 1) :
      Effect cr (.ongoing .connectMsgSent rem) e
        (if rem = .ackMsgSent then .success else .ongoing .validAckMsgReceived rem)

section
variable {env : Env} {st : Start} {s : Layer}

theorem getMessage_cases (d : DecryptedIncomingData) :
    (∃ p, Layer.getMessage d = .ok (some (reported d.msgTypeHeaders p))) ∨
    Layer.getMessage d = .panic .drainRange := by
  unfold Layer.getMessage
  split
  · left; exact ⟨_, by rw [fromBytes_eq]⟩
  · right; rfl

/-- The fields of a clear CONNECT, where the parser found them. -/
theorem connect_fields {d : DecryptedIncomingData} {inc epk algo k : Bytes}
    (hp : readerRead env s.secret inc true = .ok d) (hh : d.msgTypeHeaders = .connect epk algo k) :
    d.data = inc ∧ inc.take 4 = [0xE2, 0xC2, 0xE2, 0xD2] ∧ (inc.drop 16).take 2 = [0, 1] ∧
      (inc.drop 18).take 32 = epk ∧ (inc.drop 54).take 32 = k := by
  obtain ⟨hm, hd, hpc⟩ := connect_clear hp hh (.inl rfl)
  obtain ⟨-, hok, -, -, lb, rest, hlb, -, hx⟩ := parseClear_iff.mp hpc
  rw [hh] at hok hx
  obtain ⟨h1, rfl, h3⟩ := hok
  refine ⟨hd, hm, ?_, ?_, ?_⟩
  · rw [hx, show [0xE2, 0xC2, 0xE2, 0xD2] ++ ([0, 0, 0, 1] ++ (lb ++ (hdrBytes (.connect epk [0, 0, 0, 0] k) ++ rest)))
      = ([0xE2, 0xC2, 0xE2, 0xD2] ++ [0, 0, 0, 1] ++ lb) ++ ([0, 1] ++ (epk ++ [0, 0, 0, 0] ++ k ++ rest)) by
        simp [hdrBytes]]
    rw [List.drop_left' (by simp [hlb])]; rfl
  · rw [hx, show [0xE2, 0xC2, 0xE2, 0xD2] ++ ([0, 0, 0, 1] ++ (lb ++ (hdrBytes (.connect epk [0, 0, 0, 0] k) ++ rest)))
      = ([0xE2, 0xC2, 0xE2, 0xD2] ++ [0, 0, 0, 1] ++ lb ++ [0, 1]) ++ (epk ++ ([0, 0, 0, 0] ++ k ++ rest)) by
        simp [hdrBytes]]
    rw [List.drop_left' (by simp [hlb]), List.take_left' h1]
  · rw [hx, show [0xE2, 0xC2, 0xE2, 0xD2] ++ ([0, 0, 0, 1] ++ (lb ++ (hdrBytes (.connect epk [0, 0, 0, 0] k) ++ rest)))
      = ([0xE2, 0xC2, 0xE2, 0xD2] ++ [0, 0, 0, 1] ++ lb ++ [0, 1] ++ epk ++ [0, 0, 0, 0]) ++ (k ++ rest) by
        simp [hdrBytes]]
    rw [List.drop_left' (by simp [hlb, h1]), List.take_left' h3]

theorem signedConnect_of {d : DecryptedIncomingData} {inc epk algo k : Bytes}
    (hp : readerRead env s.secret inc true = .ok d) (hh : d.msgTypeHeaders = .connect epk algo k)
    (hv : env.cr.edVerify k (d.data.take d.userMsgEnd) (d.data.drop d.userMsgEnd) = true) :
    SignedConnect env.cr inc epk k := by
  obtain ⟨hd, h1, h2, h3, h4⟩ := connect_fields hp hh
  exact ⟨h1, h2, h3, h4, _, _, (List.take_append_drop d.userMsgEnd inc).symm, hd ▸ hv⟩

theorem signedAck_of {d : DecryptedIncomingData} {inc c k : Bytes}
    (hp : readerRead env s.secret inc true = .ok d) (hh : d.msgTypeHeaders = .ack c)
    (hv : env.cr.edVerify k (d.data.take d.userMsgEnd) (d.data.drop d.userMsgEnd) = true) :
    SignedAck env.cr inc c k := by
  obtain ⟨hm, hd, hpc⟩ := ack_clear hp hh (.inl rfl)
  obtain ⟨-, hok, -, -, lb, rest, hlb, -, hx⟩ := parseClear_iff.mp hpc
  rw [hh] at hok hx
  have hok : c.length = 32 := hok
  refine ⟨hm, ?_, ?_, _, _, (List.take_append_drop d.userMsgEnd inc).symm, hd ▸ hv⟩
  · rw [hx, show [0xE2, 0xC2, 0xE2, 0xD2] ++ ([0, 0, 0, 1] ++ (lb ++ (hdrBytes (.ack c) ++ rest)))
      = ([0xE2, 0xC2, 0xE2, 0xD2] ++ [0, 0, 0, 1] ++ lb) ++ ([0, 2] ++ (c ++ rest)) by
        simp [hdrBytes]]
    rw [List.drop_left' (by simp [hlb])]; rfl
  · rw [hx, show [0xE2, 0xC2, 0xE2, 0xD2] ++ ([0, 0, 0, 1] ++ (lb ++ (hdrBytes (.ack c) ++ rest)))
      = ([0xE2, 0xC2, 0xE2, 0xD2] ++ [0, 0, 0, 1] ++ lb ++ [0, 2]) ++ (c ++ rest) by
        simp [hdrBytes]]
    rw [List.drop_left' (by simp [hlb]), List.take_left' hok]

/-- One `read_inner` call that cannot meet a CONNECT without a key pair. -/
theorem readInner_effect (hkp : ∀ loc, s.status = .ongoing loc .waitConnectMsg → s.ephemeralKp ≠ none)
    (inc : Bytes) (chk : Bool) :
    ((((s.readInner env inc chk).1.status = s.status ∨ (s.readInner env inc chk).1.status = .fail) ∧
      ∀ m, (s.readInner env inc chk).2 = .ok (some m) → ∃ d, m = .message d ∧ s.status = .success)) ∨
    (∃ loc d epk algo k, s.status = .ongoing loc .waitConnectMsg ∧
      (s.readInner env inc chk).1.status = .ongoing loc .validConnectMsgReceived ∧
      readerRead env s.secret inc chk = .ok d ∧ d.msgTypeHeaders = .connect epk algo k ∧
      env.cr.edVerify k (d.data.take d.userMsgEnd) (d.data.drop d.userMsgEnd) = true ∧
      ((∃ c, (s.readInner env inc chk).2 = .ok (some (.connect algo k c))) ∨
        (s.readInner env inc chk).2 = .err .failToComputeAgreement ∨
        (s.readInner env inc chk).2 = .panic .drainRange)) ∨
    (∃ rem d c k, s.status = .ongoing .connectMsgSent rem ∧
      (s.readInner env inc chk).1.status =
        (if rem = .ackMsgSent then .success else .ongoing .validAckMsgReceived rem) ∧
      readerRead env s.secret inc chk = .ok d ∧ d.msgTypeHeaders = .ack c ∧
      env.cr.edVerify k (d.data.take d.userMsgEnd) (d.data.drop d.userMsgEnd) = true ∧
      ((∃ x, (s.readInner env inc chk).2 = .ok (some (.ack x))) ∨
        (s.readInner env inc chk).2 = .panic .drainRange)) := by
  have hcase := readInner_case env s inc chk
  generalize (s.readInner env inc chk).2 = r at hcase
  generalize (s.readInner env inc chk).1 = s' at hcase
  have user : ∀ {d : DecryptedIncomingData} {n : Nat} {s1 : Layer} {r1 : Res Unit},
      d.msgTypeHeaders = .userMsg n → s.status = .success → s.updateNonces env n = (s1, r1) →
      ((s1.status = s.status ∨ s1.status = .fail) ∧
        ∀ m, Layer.getMessage d = .ok (some m) → ∃ d, m = .message d ∧ s.status = .success) := by
    intro d n s1 r1 hh hs hu
    obtain ⟨O', n', st, h1, h2, -⟩ := updateNonces_frame env s n
    rw [hu] at h1
    have h1 : s1 = _ := h1
    constructor
    · rw [h1]; exact h2
    · intro m hm
      rcases getMessage_cases d with ⟨p, hg⟩ | hg
      · rw [hg, hh] at hm
        simp only [Res.ok.injEq, Option.some.injEq, reported] at hm
        exact ⟨_, hm.symm, hs⟩
      · rw [hg] at hm; simp at hm
  cases hcase with
  | connectNoKp hp hh hk hl hv hs hkp' => exact absurd hkp' (hkp _ hs)
  | @connectNoAgreement d epk algo k loc kp hp hh hk hl hv hs hkp hsec =>
    right; left
    exact ⟨loc, d, epk, algo, k, hs, rfl, hp, hh, hv, .inr (.inl rfl)⟩
  | @connectOk d epk algo k loc kp sec hp hh hk hl hv hs hkp hsec =>
    right; left
    refine ⟨loc, d, epk, algo, k, hs, rfl, hp, hh, hv, ?_⟩
    rcases getMessage_cases d with ⟨p, hg⟩ | hg
    · left; rw [hg, hh]; exact ⟨_, rfl⟩
    · right; right; exact hg
  | @ackOk d c k rem hp hh hc hk hl hv hs =>
    right; right
    refine ⟨rem, d, c, k, hs, rfl, hp, hh, hv, ?_⟩
    rcases getMessage_cases d with ⟨p, hg⟩ | hg
    · left; rw [hg, hh]; exact ⟨_, rfl⟩
    · right; exact hg
  | userNonceErr hp hh hn hs hl hv hu =>
    left; exact ⟨(user hh hs hu).1, by simp⟩
  | userNoncePanic hp hh hn hs hl hv hu =>
    left; exact ⟨(user hh hs hu).1, by simp⟩
  | userOk hp hh hn hs hl hv hu =>
    left; exact user hh hs hu
  | _ => left; simp

theorem read_effect (h : Wf env st s) (inc : Bytes) :
    Effect env.cr s.status (.read inc (s.read env inc).2) (s.read env inc).1.status := by
  rcases readInner_effect (env := env) h.wait inc true with ⟨h1, h2⟩ |
    ⟨loc, d, epk, algo, k, hs, hs', hp, hh, hv, hr⟩ | ⟨rem, d, c, k, hs, hs', hp, hh, hv, hr⟩
  · refine .quiet h1 rfl rfl ?_
    intro m hm
    apply h2
    show (s.read env inc).2 = _
    revert hm
    rcases (s.read env inc).2 with (_ | m') | e | p <;> simp [Event.delivers]
    rintro rfl; rfl
  · have hsig := signedConnect_of hp hh hv
    unfold Layer.read
    rw [hs, hs']
    refine .acceptsConnect ⟨⟨_, _, hsig⟩, ?_⟩ ?_ ?_
    · rcases hr with ⟨c, hr⟩ | hr
      · left; exact ⟨_, _, _, hr⟩
      · right; exact hr
    · rcases hr with ⟨c, hr⟩ | hr | hr <;> rw [hr] <;> simp [Event.delivers, isConnect]
    · rcases hr with ⟨c, hr⟩ | hr | hr <;> rw [hr] <;> simp [Event.delivers]
  · have hsig := signedAck_of hp hh hv
    unfold Layer.read
    rw [hs, hs']
    refine .acceptsAck ⟨⟨_, _, hsig⟩, hr⟩ ?_ ?_
    · rcases hr with ⟨c, hr⟩ | hr <;> rw [hr] <;> simp [Event.delivers, isAck]
    · rcases hr with ⟨c, hr⟩ | hr <;> rw [hr] <;> simp [Event.delivers]

/-- What the stack of early messages holds is parsed as user messages. -/
theorem stacked_header {b : Bytes} {sec : Option SecretKey} {d d' : DecryptedIncomingData} {n : Nat}
    (hp : parseClear env true b true = .ok d) (hh : d.msgTypeHeaders = .userMsg n)
    (hr : readerRead env sec b false = .ok d') : d' = d := by
  have hm := parse_magic hp
  rw [readerRead_clear hm] at hr
  have : parseClear env false b false = .ok d := by
    obtain ⟨h1, h2, h3, -, h5⟩ := parseClear_iff.mp hp
    exact parseClear_iff.mpr ⟨h1, h2, h3, by simp, h5⟩
  rw [this] at hr
  simpa using hr.symm

theorem drainLoop_effect (bs : List Bytes) (ms : List Message) (h : Wf env st s)
    (hb : ∀ b ∈ bs, ∃ n d, parseClear env true b true = .ok d ∧ d.msgTypeHeaders = .userMsg n) :
    ((s.drainLoop env bs ms).1.status = s.status ∨ (s.drainLoop env bs ms).1.status = .fail) ∧
    ∀ l, (s.drainLoop env bs ms).2 = .ok l → ∀ m ∈ l, m ∈ ms ∨ ∃ d, m = .message d ∧ s.status = .success := by
  induction bs generalizing s ms with
  | nil =>
    refine ⟨.inl rfl, ?_⟩
    intro l hl m hm
    unfold Layer.drainLoop at hl
    simp only [Res.ok.injEq] at hl
    subst hl; exact .inl hm
  | cons b bs ih =>
    obtain ⟨n, d, hp, hh⟩ := hb b (by simp)
    have h2 := h.readInner b false (.inr (parse_magic hp))
    have hb2 : ∀ b ∈ bs, ∃ n d, parseClear env true b true = .ok d ∧ d.msgTypeHeaders = .userMsg n :=
      fun b hm => hb b (by simp [hm])
    have he := readInner_effect (env := env) h.wait b false
    have he : ((s.readInner env b false).1.status = s.status ∨ (s.readInner env b false).1.status = .fail) ∧
        ∀ m, (s.readInner env b false).2 = .ok (some m) → ∃ d, m = .message d ∧ s.status = .success := by
      rcases he with he | ⟨loc, d', epk, algo, k, -, -, hp', hh', -⟩ | ⟨rem, d', c, k, -, -, hp', hh', -⟩
      · exact he
      · rw [stacked_header hp hh hp', hh] at hh'; simp at hh'
      · rw [stacked_header hp hh hp', hh] at hh'; simp at hh'
    unfold Layer.drainLoop
    rcases hr : s.readInner env b false with ⟨s', r⟩
    rw [hr] at h2 he
    obtain ⟨he1, he2⟩ := he
    have hst : ∀ x, (x = s'.status ∨ x = .fail) → x = s.status ∨ x = .fail := by
      intro x hx
      rcases hx with rfl | rfl
      · exact he1
      · exact .inr rfl
    have hsucc : s'.status = .success → s.status = .success := by
      intro hx
      rcases he1 with h | h
      · have h : s'.status = s.status := h
        rw [← h]; exact hx
      · have h : s'.status = .fail := h
        rw [hx] at h; simp at h
    rcases r with (_ | m) | e | p
    · obtain ⟨i1, i2⟩ := ih ms h2 hb2
      refine ⟨hst _ i1, ?_⟩
      intro l hl m hm
      rcases i2 l hl m hm with h | ⟨d, h1, h2⟩
      · exact .inl h
      · exact .inr ⟨d, h1, hsucc h2⟩
    · obtain ⟨i1, i2⟩ := ih (ms ++ [m]) h2 hb2
      refine ⟨hst _ i1, ?_⟩
      intro l hl m' hm
      rcases i2 l hl m' hm with h | ⟨d, h1, h2⟩
      · rcases List.mem_append.mp h with h | h
        · exact .inl h
        · simp only [List.mem_singleton] at h
          subst h
          exact .inr (he2 m' rfl)
      · exact .inr ⟨d, h1, hsucc h2⟩
    · exact ⟨he1, by simp⟩
    · exact ⟨he1, by simp⟩

theorem clear_ack (h : Wf env st s) : Wf env st { s with ackMsgRecvTooEarly := none } where
  epub := h.epub
  kp := h.kp
  wait := h.wait
  past := h.past
  peer := h.peer
  secr := h.secr
  fresh := h.fresh
  win := h.win.congr rfl rfl
  stack := h.stack
  stackP := h.stackP
  ackP := by simp
  expc := h.expc
  sent := h.sent

theorem clear_stack (h : Wf env st s) : Wf env st { s with tmpStack := [] } where
  epub := h.epub
  kp := h.kp
  wait := h.wait
  past := h.past
  peer := h.peer
  secr := h.secr
  fresh := h.fresh
  win := h.win.congr rfl rfl
  stack := by simp
  stackP := by simp
  ackP := h.ackP
  expc := h.expc
  sent := h.sent

theorem step_effect (h : Wf env st s) (op : Op) :
    Effect env.cr s.status (step env s op).2 (step env s op).1.status := by
  cases op with
  | read b => exact read_effect h b
  | takeAck =>
    show Effect env.cr s.status (.takeAck (s.takeAck env).2) (s.takeAck env).1.status
    unfold Layer.takeAck
    cases ha : s.ackMsgRecvTooEarly with
    | none => exact .quiet (.inl rfl) rfl rfl (by simp [Event.delivers])
    | some b =>
      dsimp only
      obtain ⟨hm, d0, hp0, hh0⟩ := h.ackP b ha
      have hrd : readerRead env { s with ackMsgRecvTooEarly := none }.secret b true = .ok d0 := by
        rw [readerRead_clear hm]; exact hp0
      have h' := clear_ack h
      rcases readInner_effect (env := env) h'.wait b true with ⟨h1, h2⟩ |
        ⟨loc, d, epk, algo, k, hs, hs', hp, hh, hv, hr⟩ | ⟨rem, d, c, k, hs, hs', hp, hh, hv, hr⟩
      · refine .quiet h1 rfl rfl ?_
        intro m hm
        apply h2
        change m ∈ Event.delivers (.takeAck (Layer.readInner env _ b true).2) at hm
        revert hm
        rcases (Layer.readInner env { s with ackMsgRecvTooEarly := none } b true).2 with (_ | m') | e | p <;>
          simp [Event.delivers]
        rintro rfl; rfl
      · rw [hrd] at hp
        simp only [Res.ok.injEq] at hp
        rw [← hp, hh0] at hh
        simp at hh
      · unfold Layer.read
        have hs : s.status = _ := hs
        generalize Layer.readInner env _ b true = t at hs' hr ⊢
        rw [hs, hs']
        refine .acceptsAck hr ?_ ?_
        · rcases hr with ⟨c, hr⟩ | hr <;> rw [hr] <;> simp [Event.delivers, isAck]
        · rcases hr with ⟨c, hr⟩ | hr <;> rw [hr] <;> simp [Event.delivers]
  | drain =>
    show Effect env.cr s.status (.drain (s.drainTmpStack env).2) (s.drainTmpStack env).1.status
    obtain ⟨h1, h2⟩ := drainLoop_effect (env := env) s.tmpStack [] (clear_stack h) h.stackP
    refine .quiet h1 rfl rfl ?_
    intro m hm
    unfold Layer.drainTmpStack at hm
    rcases hr : (Layer.drainLoop env { s with tmpStack := [] } s.tmpStack []).2 with l | e | p
    · rw [hr] at hm
      rcases h2 l hr m hm with h | h
      · simp at h
      · exact h
    · rw [hr] at hm; simp [Event.delivers] at hm
    · rw [hr] at hm; simp [Event.delivers] at hm
  | connect pk d =>
    show Effect env.cr s.status (.connect pk d (s.createConnect env pk d).2) (s.createConnect env pk d).1.status
    rcases createConnect_cases env s pk d with ⟨rem, hs, he⟩ | ⟨-, he⟩
    · rw [he, hs]; exact .createsConnect
    · rw [he]; exact .quiet (.inl rfl) rfl rfl (by simp [Event.delivers])
  | ack d =>
    show Effect env.cr s.status (.ack d (s.createAck env d).2) (s.createAck env d).1.status
    rcases createAck_cases env s d with ⟨loc, hs, he⟩ | ⟨-, he⟩
    · obtain ⟨e, hp⟩ := Option.ne_none_iff_exists'.mp (h.past _ _ hs (by simp)).1
      rw [he, hs, hp]; exact .createsAck
    · rw [he]; exact .quiet (.inl rfl) rfl rfl (by simp [Event.delivers])
  | write d w =>
    show Effect env.cr s.status (.write d w (s.writeMessage env d w).2.1 (s.writeMessage env d w).2.2)
      (s.writeMessage env d w).1.status
    rcases writeMessage_cases env s d w with ⟨-, he⟩ | ⟨_, _, -, he⟩ | ⟨-, -, he⟩ |
      ⟨hs, k, hk, ⟨w', e, -, he⟩ | ⟨w', -, ⟨n, hn, he⟩ | ⟨-, he⟩⟩⟩ <;> rw [he] <;>
    exact .quiet (by simp) rfl rfl (by simp [Event.delivers])
  | clone =>
    show Effect env.cr s.status (.clone (unitRes s.tryClone.2)) s.tryClone.1.status
    refine .quiet (.inl ?_) rfl rfl (by simp [Event.delivers])
    unfold Layer.tryClone
    split <;> rfl
  | config c =>
    show Effect env.cr s.status (.config c (s.changeConfig c).2) (s.changeConfig c).1.status
    refine .quiet (.inl ?_) rfl rfl (by simp [Event.delivers])
    unfold Layer.changeConfig
    split <;> rfl

end
end Pkstl
