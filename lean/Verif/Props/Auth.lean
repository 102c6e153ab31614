import Verif.Lemmas.Delivered
import Verif.Spec.ToySession
/- C11–C14: authentication of the negotiation, agreement on the secret, stability. -/
namespace Pkstl
open Spec

/-- A CONNECT is delivered only by `read`. -/
theorem connect_by_read {env : Env} {st : Start} {s : Layer} (h : Wf env st s) {op : Op} {algo k : Bytes}
    {p : Option Bytes} (hm : Message.connect algo k p ∈ (step env s op).2.delivers) :
    ∃ inc, op = .read inc ∧ (s.readInner env inc true).2 = .ok (some (.connect algo k p)) := by
  have heff := step_effect h op
  have hacc : (step env s op).2.acceptsConnect env.cr := by
    generalize (step env s op).2 = e at heff hm
    generalize (step env s op).1.status = b at heff
    generalize s.status = a at heff
    cases heff with
    | quiet hb h1 h2 h3 => obtain ⟨d, h4, -⟩ := h3 _ hm; simp at h4
    | createsConnect => simp [Event.delivers] at hm
    | createsAck => simp [Event.delivers] at hm
    | acceptsConnect h => exact h
    | acceptsAck h h3 => have := h3 _ hm; simp [isAck] at this
  cases op with
  | read inc =>
    refine ⟨inc, rfl, ?_⟩
    show (s.read env inc).2 = _
    simp only [step] at hm
    rcases hr : (s.read env inc).2 with (_ | m) | e | p <;> rw [hr] at hm <;> simp [Event.delivers] at hm
    rw [hm]
  | _ => exact False.elim hacc

/-- An ACK is delivered by `read`, or by `take_ack_msg_recv_too_early` from an input stored earlier. -/
theorem ack_by_read {env : Env} {st : Start} {s : Layer} (h : Wf env st s) {op : Op}
    {p : Option Bytes} (hm : Message.ack p ∈ (step env s op).2.delivers) :
    (∃ inc, op = .read inc ∧ (s.readInner env inc true).2 = .ok (some (.ack p))) ∨
    (∃ inc, op = .takeAck ∧ s.ackMsgRecvTooEarly = some inc ∧
      s.takeAck env = Layer.readInner env { s with ackMsgRecvTooEarly := none } inc true ∧
      (Layer.readInner env { s with ackMsgRecvTooEarly := none } inc true).2 = .ok (some (.ack p))) := by
  have heff := step_effect h op
  have hacc : (step env s op).2.acceptsAck env.cr := by
    generalize (step env s op).2 = e at heff hm
    generalize (step env s op).1.status = b at heff
    generalize s.status = a at heff
    cases heff with
    | quiet hb h1 h2 h3 => obtain ⟨d, h4, -⟩ := h3 _ hm; simp at h4
    | createsConnect => simp [Event.delivers] at hm
    | createsAck => simp [Event.delivers] at hm
    | acceptsConnect h h3 => have := h3 _ hm; simp [isConnect] at this
    | acceptsAck h => exact h
  cases op with
  | read inc =>
    left
    refine ⟨inc, rfl, ?_⟩
    show (s.read env inc).2 = _
    simp only [step] at hm
    rcases hr : (s.read env inc).2 with (_ | m) | e | p <;> rw [hr] at hm <;> simp [Event.delivers] at hm
    rw [hm]
  | takeAck =>
    right
    rcases takeAck_cases env s with ⟨-, he⟩ | ⟨b, hb, he⟩
    · simp [step, he, Event.delivers] at hm
    · refine ⟨b, rfl, hb, he, ?_⟩
      simp only [step, he] at hm
      rcases hr : (Layer.readInner env { s with ackMsgRecvTooEarly := none } b true).2 with (_ | m) | e | p <;>
        rw [hr] at hm <;> simp [Event.delivers] at hm
      rw [hm]
  | _ => exact False.elim hacc

/-- A delivered CONNECT came in one `read` call whose input is the message followed by a signature over it
that verifies under the key the message announces; this key is the expected one if one was configured. -/
theorem C11_connect_authentic {env : Env} {st : Start} {h h1 h2 : List Event} {s : Layer} {e : Event}
    {algo k : Bytes} {p : Option Bytes} (hr : Run env st h s) (hh : h = h1 ++ e :: h2)
    (hm : Message.connect algo k p ∈ e.delivers) :
    ∃ epk payload sig,
      e = .read (connectFrame epk k payload ++ sig) (.ok (some (.connect algo k p))) ∧
      env.cr.edVerify k (connectFrame epk k payload) sig = true ∧
      p = present payload ∧ epk.length = 32 ∧ k.length = 32 ∧ algo = [0, 0, 0, 0] ∧
      ∀ x, st.expected = some x → k = x := by
  obtain ⟨s1, s2, hr1, -, -, ⟨op, he, -⟩ | ⟨he, -⟩⟩ := hr.at hh
  swap
  · rw [he] at hm; simp [Event.delivers] at hm
  rw [he] at hm
  have hw := Wf.of_run hr1
  obtain ⟨inc, rfl, hres⟩ := connect_by_read hw hm
  obtain ⟨loc, epk, payload, sig, sec, hs, hk, hinc, hv, hp, h1, h2, h3, -, -⟩ := read_connect_inv hw hres
  refine ⟨epk, payload, sig, ?_, hv, hp, h1, h2, h3, ?_⟩
  · rw [he, ← hinc, ← hres]; rfl
  · intro x hx
    have := hw.expc x hx (hw.fresh _ _ hs).1
    rcases hk with hk | hk <;> rw [hk] at this <;> simp at this
    exact this

/-- Toy party B accepts A's CONNECT. -/
example : ∃ h s, Run (Toy.env true) Toy.stB h s ∧
    .connect [0, 0, 0, 0] Toy.pkA (some [7, 8]) ∈ deliveries h :=
  ⟨_, _, .call (Toy.run0 true [2] none) (.read (Toy.sign Toy.seedA Toy.conA)), by decide +kernel⟩

/-- The key a layer has pinned stays pinned until it is cloned; then nothing is negotiated any more. -/
theorem steps_psk {env : Env} {st : Start} {h h' : List Event} {s s' : Layer} {k : Bytes}
    (hr : Run env st h s) (hs : Steps env s h' s') (hk : s.peerSigPubkey = some k) :
    s'.peerSigPubkey = some k ∨ ∀ loc rem, s'.status ≠ .ongoing loc rem := by
  induction hs with
  | refl => exact .inl hk
  | call hs op ih =>
    have hw := Wf.of_run (hr.steps hs)
    rcases ih with ih | ih
    · exact .inl ((stepFrame hw op).psk _ ih)
    · right
      have heff := step_effect hw op
      rename_i s1 _
      generalize (step env s1 op).2 = e at heff
      generalize (step env s1 op).1.status = b at heff
      generalize hx : s1.status = a at heff ih
      cases heff with
      | quiet hb => rcases hb with rfl | rfl
                    · exact ih
                    · simp
      | createsConnect => exact absurd rfl (ih _ _)
      | createsAck => exact absurd rfl (ih _ _)
      | acceptsConnect => exact absurd rfl (ih _ _)
      | acceptsAck => exact absurd rfl (ih _ _)
  | cloned hs hc ih =>
    right
    obtain ⟨h1, rfl⟩ := tryClone_ok hc
    simp [h1]

/-- A delivered ACK is an input of this or an earlier `read` call: it echoes the hash of this layer's own
ephemeral key and carries a signature over all its bytes by one key; that key is the configured one if
there is one, and every CONNECT delivered by this layer, earlier or later, reports that key. -/
theorem C12_ack_possession {env : Env} {st : Start} {h h1 h2 : List Event} {s : Layer} {e : Event}
    {p : Option Bytes} (hr : Run env st h s) (hh : h = h1 ++ e :: h2)
    (hm : Message.ack p ∈ e.delivers) :
    ∃ k payload sig,
      ackFrame (env.cr.sha256 (env.cr.xPublic st.random)) payload ++ sig ∈ inputs (h1 ++ [e]) ∧
      env.cr.edVerify k (ackFrame (env.cr.sha256 (env.cr.xPublic st.random)) payload) sig = true ∧
      p = present payload ∧ (∀ x, st.expected = some x → k = x) ∧
      ∀ algo k' q, Message.connect algo k' q ∈ deliveries h → k' = k := by
  obtain ⟨s1, s2, hr1, hs2, hr2, ⟨op, he, he2⟩ | ⟨he, -⟩⟩ := hr.at hh
  swap
  · rw [he] at hm; simp [Event.delivers] at hm
  have hw := Wf.of_run hr1
  have hprov := Prov.of_run hr1
  -- the state in which the ACK was read
  have key : ∃ rem payload sig k inc, s1.status = .ongoing .connectMsgSent rem ∧ s1.peerSigPubkey = some k ∧
      inc = ackFrame (env.cr.sha256 (env.cr.xPublic st.random)) payload ++ sig ∧
      env.cr.edVerify k (ackFrame (env.cr.sha256 (env.cr.xPublic st.random)) payload) sig = true ∧
      p = present payload ∧ inc ∈ inputs (h1 ++ [e]) := by
    rw [he] at hm
    rcases ack_by_read hw hm with ⟨inc, rfl, hres⟩ | ⟨inc, rfl, hst, -, hres⟩
    · obtain ⟨rem, payload, sig, k, h3, h4, h5, h6, h7, -⟩ := read_ack_inv hw hres
      refine ⟨rem, payload, sig, k, inc, h3, h4, h5, h6, h7, ?_⟩
      rw [he]; simp [inputs, step]
    · obtain ⟨rem, payload, sig, k, h3, h4, h5, h6, h7, -⟩ := read_ack_inv (clear_ack hw) hres
      refine ⟨rem, payload, sig, k, inc, h3, h4, h5, h6, h7, ?_⟩
      rw [inputs_append]
      exact List.mem_append_left _ (hprov.ack _ hst)
  obtain ⟨rem, payload, sig, k, inc, hs, hk, hinc, hv, hp, hin⟩ := key
  refine ⟨k, payload, sig, hinc ▸ hin, hv, hp, ?_, ?_⟩
  · intro x hx
    have := hw.expc x hx (hw.fresh _ _ hs).1
    rw [hk] at this
    simpa using this
  · intro algo k' q hq
    obtain ⟨e', he', hd'⟩ := List.mem_flatMap.mp hq
    have hpsk2 : s2.peerSigPubkey = some k := by rw [he2]; exact (stepFrame hw op).psk _ hk
    rw [hh] at he'
    rcases List.mem_append.mp he' with hmem | hmem
    · -- delivered before the ACK
      obtain ⟨l1, l2, hl⟩ := List.append_of_mem hmem
      obtain ⟨t1, t2, ht1, hst2, ht2, ⟨op', ho, ho2⟩ | ⟨ho, -⟩⟩ := hr1.at hl
      swap
      · rw [ho] at hd'; simp [Event.delivers] at hd'
      rw [ho] at hd'
      have hwt := Wf.of_run ht1
      obtain ⟨inc', rfl, hres'⟩ := connect_by_read hwt hd'
      obtain ⟨loc', epk', payload', sig', sec', hs', -, -, -, -, -, -, -, -, hfin⟩ := read_connect_inv hwt hres'
      have : t2.peerSigPubkey = some k' := by
        rw [ho2]
        show (t1.readInner env inc' true).1.peerSigPubkey = _
        rw [hfin]
      rcases steps_psk ht2 hst2 this with h | h
      · rw [hk] at h; simpa using h.symm
      · exact absurd hs (h _ _)
    · rcases List.mem_cons.mp hmem with rfl | hmem
      · -- the same event delivers one message
        rw [he] at hd' hm
        obtain ⟨inc', rfl, hres'⟩ := connect_by_read hw hd'
        simp only [step, Layer.read, hres', Event.delivers] at hm
        simp at hm
      · -- delivered after the ACK
        obtain ⟨l1, l2, hl⟩ := List.append_of_mem hmem
        obtain ⟨t1, t2, hst, -, ⟨op', ho, -⟩ | ⟨ho, -⟩⟩ := hs2.at hl
        swap
        · rw [ho] at hd'; simp [Event.delivers] at hd'
        have ht1 := hr2.steps hst
        rw [ho] at hd'
        have hwt := Wf.of_run ht1
        obtain ⟨inc', rfl, hres'⟩ := connect_by_read hwt hd'
        obtain ⟨loc', epk', payload', sig', sec', hs', hk', -⟩ := read_connect_inv hwt hres'
        rcases steps_psk hr2 hst hpsk2 with h | h
        · rw [h] at hk'; simp at hk'; exact hk'.symm
        · exact absurd hs' (h _ _)

/-- Toy party A accepts B's ACK. -/
example : ∃ h s, Run (Toy.env true) Toy.stA h s ∧ .ack none ∈ deliveries h := by
  obtain ⟨h, hr⟩ := Toy.reach_a2 true
  refine ⟨_, _, .call hr (.read (Toy.sign Toy.seedB Toy.ackB)), ?_⟩
  rw [deliveries, List.flatMap_append]
  exact List.mem_append_right _ (by decide +kernel)

/-- Some `read` of the history delivered a CONNECT announcing the ephemeral key `epk`. -/
def MetEphemeral (h : List Event) (epk : Bytes) : Prop :=
  ∃ k payload sig m, .read (connectFrame epk k payload ++ sig) (.ok (some m)) ∈ h ∧ isConnect m = true ∧
    epk.length = 32

/-- The session key is fixed by the CONNECT that was delivered. -/
theorem met_secret {env : Env} {st : Start} {h : List Event} {s : Layer} {epk : Bytes}
    (hr : Run env st h s) (hm : MetEphemeral h epk) :
    ∃ k, s.secret = some k ∧ sessionKey env.cr st.random (env.cr.xPublic st.random) epk = some k := by
  obtain ⟨k, payload, sig, m, hmem, hcm, hlen⟩ := hm
  obtain ⟨l1, l2, hl⟩ := List.append_of_mem hmem
  obtain ⟨s1, s2, hr1, hs2, hr2, ⟨op, he, he2⟩ | ⟨he, -⟩⟩ := hr.at hl
  swap
  · simp at he
  have hw := Wf.of_run hr1
  cases m with
  | connect algo k' p =>
    have hd : Message.connect algo k' p ∈ (step env s1 op).2.delivers := by
      rw [← he]; simp [Event.delivers]
    obtain ⟨inc, rfl, hres⟩ := connect_by_read hw hd
    obtain ⟨loc, epk', payload', sig', sec, hs, -, hinc, hv, -, h3, h4, -, hsec, hfin⟩ := read_connect_inv hw hres
    simp only [step, Event.read.injEq] at he
    have hep : epk = epk' := by
      have h5 : connectFrame epk k payload ++ sig = connectFrame epk' k' payload' ++ sig' := by
        rw [← hinc]; exact he.1
      have := congrArg (fun b => (b.drop 18).take 32) h5
      simpa [connectFrame, frame, be64, hlen, h3, List.take_append] using this
    subst hep
    have hsec2 : s2.secret = some sec := by
      rw [he2]
      show (s1.readInner env inc true).1.secret = _
      rw [hfin]
    refine ⟨sec, ?_, hsec⟩
    clear he2 hl hr
    induction hs2 with
    | refl => exact hsec2
    | call hst op ih => exact (stepFrame (Wf.of_run (hr2.steps hst)) op).secret _ ih
    | cloned hst hc ih =>
      obtain ⟨-, rfl⟩ := tryClone_ok hc
      exact ih
  | ack p => simp [isConnect] at hcm
  | message p => simp [isConnect] at hcm

/-- Two layers that have each delivered the other's CONNECT hold the same key, nonce and associated
data, now and in every later state including clones: the key of the specification. -/
theorem C13_same_secret {env : Env} (law : env.cr.Lawful) {stA stB : Start} {hA hB : List Event} {a b : Layer}
    (hrA : Run env stA hA a) (hrB : Run env stB hB b)
    (hmA : MetEphemeral hA (env.cr.xPublic stB.random)) (hmB : MetEphemeral hB (env.cr.xPublic stA.random)) :
    ∃ k, a.secret = some k ∧ b.secret = some k ∧
      sessionKey env.cr stA.random (env.cr.xPublic stA.random) (env.cr.xPublic stB.random) = some k ∧
      k.key.length = 32 ∧ k.nonce.length = 12 ∧ k.aad.length = 4 := by
  obtain ⟨k, h1, h2⟩ := met_secret hrA hmA
  obtain ⟨k', h3, h4⟩ := met_secret hrB hmB
  rw [sessionKey_comm law, h2] at h4
  simp only [Option.some.injEq] at h4
  subst h4
  refine ⟨k, h1, h3, h2, ?_⟩
  unfold sessionKey at h2
  obtain ⟨z, -, rfl⟩ := Option.map_eq_some_iff.mp h2
  simp [law.pbkdf2_length]

/-- The toy parties meet the hypotheses. -/
example : (∃ h s, Run (Toy.env true) Toy.stB h s ∧ MetEphemeral h (Toy.cr.xPublic Toy.stA.random)) ∧
    (∃ h s, Run (Toy.env true) Toy.stA h s ∧ MetEphemeral h (Toy.cr.xPublic Toy.stB.random)) := by
  constructor
  · refine ⟨_, _, .call (Toy.run0 true [2] none) (.read (Toy.sign Toy.seedA Toy.conA)), Toy.pkA, [7, 8],
      Toy.cr.edSign Toy.seedA Toy.conA, .connect [0, 0, 0, 0] Toy.pkA (some [7, 8]), ?_, rfl, by decide⟩
    decide +kernel
  · refine ⟨_, _, .call (Toy.run0 true [1] none) (.read (Toy.sign Toy.seedB Toy.conB)), Toy.pkB, [],
      Toy.cr.edSign Toy.seedB Toy.conB, .connect [0, 0, 0, 0] Toy.pkB none, ?_, rfl, by decide⟩
    decide +kernel

/-- The session secret and the own ephemeral key never change, also not by cloning. -/
theorem C14_secret_stable {env : Env} {st : Start} {h h' : List Event} {s s' : Layer}
    (hr : Run env st h s) (hs : Steps env s h' s') :
    s'.ephemeralPubkey = s.ephemeralPubkey ∧ (∀ k, s.secret = some k → s'.secret = some k) := by
  induction hs with
  | refl => exact ⟨rfl, fun _ h => h⟩
  | call hst op ih =>
    have := stepFrame (Wf.of_run (hr.steps hst)) op
    exact ⟨this.epub.trans ih.1, fun k hk => this.secret k (ih.2 k hk)⟩
  | cloned hst hc ih =>
    obtain ⟨-, rfl⟩ := tryClone_ok hc
    exact ih

/-- The peer's keys never change by any sequence of calls; a clone forgets them and never sets its own
through the negotiation (it is negotiated already). -/
theorem C14_peer_stable {env : Env} {st : Start} {h : List Event} {s : Layer}
    (hr : Run env st h s) (ops : List Op) :
    (∀ k, s.peerSigPubkey = some k → (ops.foldl (fun s op => (step env s op).1) s).peerSigPubkey = some k) ∧
    (∀ k, s.peerEpk = some k → (ops.foldl (fun s op => (step env s op).1) s).peerEpk = some k) := by
  induction ops generalizing h s with
  | nil => exact ⟨fun _ h => h, fun _ h => h⟩
  | cons op ops ih =>
    have := stepFrame (Wf.of_run hr) op
    obtain ⟨i1, i2⟩ := ih (.call hr op)
    exact ⟨fun k hk => i1 k (this.psk k hk), fun k hk => i2 k (this.epk k hk)⟩

/-- All the keys are present in the negotiated toy party. -/
example : Toy.Reach (Toy.env true) Toy.stA Toy.a4 ∧ Toy.a4.secret = some Toy.key ∧
    Toy.a4.peerSigPubkey = some Toy.pkB ∧ Toy.a4.peerEpk = some (Toy.xpub [2]) := ⟨Toy.reach_a4 _, rfl, rfl, rfl⟩

end Pkstl
