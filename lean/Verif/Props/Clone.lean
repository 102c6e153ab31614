import Verif.Lemmas.Clone
import Verif.Lemmas.WriteEval
import Verif.Props.Negotiation
import Verif.Props.Window
/- C33, C34, C35, C36: cloning. -/
namespace Pkstl
open Spec

section
variable {env : Env} {st : Start} {h : List Event} {s c : Layer}

/-- **C33.** `try_clone` succeeds exactly on negotiated layers; otherwise it reports
`NegoMustHaveBeenSuccessful` and changes nothing. -/
theorem C33_iff (s : Layer) :
    ((∃ c, s.tryClone.2 = .ok c) ↔ s.status = .success) ∧
    (s.status ≠ .success → s.tryClone = (s, .err .negoMustHaveBeenSuccessful)) := by
  refine ⟨⟨fun ⟨c, hc⟩ => (tryClone_iff.mp hc).1, fun hs => ⟨_, tryClone_iff.mpr ⟨hs, rfl⟩⟩⟩, fun hs => ?_⟩
  unfold Layer.tryClone
  exact if_neg hs

/-- **C33.** The clone has the secret, window, numbering, configuration, public key and pending early
messages of the original; the original only gets its configuration frozen. -/
theorem C33_same (hc : s.tryClone.2 = .ok c) :
    s.tryClone.1 = { s with cloned := true } ∧
    c.secret = s.secret ∧ c.nextNonceExpected = s.nextNonceExpected ∧ c.orphanNonces = s.orphanNonces ∧
    c.nextNonceSent = s.nextNonceSent ∧ c.config = s.config ∧ c.tmpStack = s.tmpStack ∧
    c.ephemeralPubkey = s.ephemeralPubkey ∧ c.status = .success ∧ c.cloned = true := by
  obtain ⟨hs, rfl⟩ := tryClone_iff.mp hc
  refine ⟨?_, rfl, rfl, rfl, rfl, rfl, rfl, rfl, hs, rfl⟩
  unfold Layer.tryClone
  rw [if_pos hs]

/-- **C33.** Original and clone answer alike: every call of the traffic phase has the same observable result
on the original before cloning, on the original after cloning and on the clone. -/
theorem C33_alike (hr : Run env st h s) (hc : s.tryClone.2 = .ok c) {op : Op} (ho : op.traffic = true) :
    (step env c op).2 = (step env s op).2 ∧ (step env s.tryClone.1 op).2 = (step env s op).2 := by
  have hw := Wf.of_run hr
  obtain ⟨h1, -⟩ := C33_same hc
  obtain ⟨hs, rfl⟩ := tryClone_iff.mp hc
  rw [h1]
  have key : ∀ x : Layer, SameRx x s → SameTx x s → (step env x op).2 = (step env s op).2 := by
    intro x rx tx
    cases op with
    | write d w => simp only [step]; rw [(write_same tx d w).1]
    | drain => simp only [step]; rw [(drain_same rx hw.stackP).1]
    | read b =>
      simp only [Op.traffic, decide_eq_true_eq] at ho
      simp only [step]; rw [(read_same rx ho).1]
    | takeAck => simp [Op.traffic] at ho
    | connect _ _ => simp [Op.traffic] at ho
    | ack _ => simp [Op.traffic] at ho
    | clone => simp [Op.traffic] at ho
    | config _ => simp [Op.traffic] at ho
  exact ⟨key _ ⟨rfl, rfl, rfl, rfl, rfl⟩ ⟨rfl, rfl, rfl⟩, key _ ⟨rfl, rfl, rfl, rfl, rfl⟩ ⟨rfl, rfl, rfl⟩⟩

/-- A negotiated toy party can be cloned. -/
example (oc : Bool) : ∃ h c, Run (Toy.env oc) Toy.stB h Toy.b4 ∧ Toy.b4.tryClone.2 = .ok c ∧
    (Op.read (cipherOf Toy.cr Toy.key 3 [5])).traffic = true ∧
    (step (Toy.env oc) c (.read (cipherOf Toy.cr Toy.key 3 [5]))).2 =
      .read (cipherOf Toy.cr Toy.key 3 [5]) (.ok (some (.message (some [5])))) := by
  obtain ⟨h, hr⟩ := Toy.reach_b4 oc
  exact ⟨h, _, hr, rfl, by decide +kernel, by cases oc <;> decide +kernel⟩

/-- The single layer, the writing original and the reading clone agree as long as nothing failed. -/
structure Split (s w r : Layer) : Prop where
  rx : SameRx r s
  tx : SameTx w s

theorem runAll_append (env : Env) (s : Layer) (a b : List Op) :
    runAll env s (a ++ b) =
      ((runAll env (runAll env s a).1 b).1, (runAll env s a).2 ++ (runAll env (runAll env s a).1 b).2) := by
  induction a generalizing s with
  | nil => rfl
  | cons x a ih => simp [runAll, ih]

theorem runAll_steps {s0 : Layer} (hs : Steps env s0 h s) (ops : List Op) :
    Steps env s0 (h ++ (runAll env s ops).2) (runAll env s ops).1 := by
  induction ops generalizing h s with
  | nil => simpa [runAll] using hs
  | cons op ops ih => simpa [runAll] using ih (hs.call op)

/-- A negotiated layer stays negotiated or fails. -/
theorem step_success (hw : Wf env st s) (hs : s.status = .success) (op : Op) :
    (step env s op).1.status = .success ∨ (step env s op).1.status = .fail := by
  have heff := step_effect hw op
  rw [hs] at heff
  generalize (step env s op).2 = e at heff
  generalize (step env s op).1.status = b at heff ⊢
  generalize ha : Status.success = a at heff
  cases heff with
  | quiet hb h1 h2 h3 => rcases hb with rfl | rfl <;> simp [← ha]
  | createsConnect => simp at ha
  | createsAck => simp at ha
  | acceptsConnect => simp at ha
  | acceptsAck => simp at ha

/-- While the single layer has not failed, splitting makes no difference. -/
theorem split_events (hr : Run env st h s) {w r : Layer} (sp : Split s w r) (hs : s.status = .success)
    (ops : List Op) (ho : ∀ x ∈ ops, x.traffic = true) (hok : (runAll env s ops.dropLast).1.status = .success) :
    (runSplit env w r ops).2 = (runAll env s ops).2 := by
  induction ops generalizing h s w r with
  | nil => rfl
  | cons op ops ih =>
    have hw := Wf.of_run hr
    have hnext : ops ≠ [] → (step env s op).1.status = .success := by
      intro hne
      rw [List.dropLast_cons_of_ne_nil hne] at hok
      rcases step_success hw hs op with h' | h'
      · exact h'
      · have := (C09_fail_forever (hr.call op) h' (runAll_steps (.refl _) ops.dropLast)).1
        simp only [runAll] at hok
        rw [this] at hok; simp at hok
    have hok' : ops ≠ [] → (runAll env (step env s op).1 ops.dropLast).1.status = .success := by
      intro hne
      rw [List.dropLast_cons_of_ne_nil hne] at hok
      exact hok
    have tail : ∀ w' r', (ops ≠ [] → Split (step env s op).1 w' r') →
        (runSplit env w' r' ops).2 = (runAll env (step env s op).1 ops).2 := by
      intro w' r' hsp
      rcases List.eq_nil_or_concat ops with rfl | ⟨l, x, hx⟩
      · rfl
      · have hne : ops ≠ [] := by rw [hx]; simp
        exact ih (hr.call op) (hsp hne) (hnext hne) (fun x hx => ho x (by simp [hx])) (hok' hne)
    have hop := ho op (by simp)
    cases op with
    | write d bw =>
      obtain ⟨e1, e2⟩ := write_same (env := env) sp.tx d bw
      have hev : (step env w (.write d bw)).2 = (step env s (.write d bw)).2 := by
        simp only [step]; rw [e1]
      simp only [runSplit, runAll]
      rw [hev, tail]
      intro hne
      have hn := hnext hne
      refine ⟨?_, e2⟩
      obtain ⟨h1, h2, h3, h4, h5⟩ := sp.rx
      simp only [step] at hn ⊢
      rcases writeMessage_cases env s d bw with ⟨-, he⟩ | ⟨_, _, -, he⟩ | ⟨-, -, he⟩ |
        ⟨-, k, hk, ⟨w', e, -, he⟩ | ⟨w', -, ⟨n, -, he⟩ | ⟨-, he⟩⟩⟩ <;> rw [he] at hn ⊢ <;>
        first
        | exact ⟨h1, h2, h3, h4, h5⟩
        | (simp at hn)
    | drain =>
      obtain ⟨e1, e2⟩ := drain_same (env := env) sp.rx hw.stackP
      have hev : (step env r .drain).2 = (step env s .drain).2 := by
        simp only [step]; rw [e1]
      simp only [runSplit, runAll]
      rw [hev, tail]
      intro hne
      have hn := hnext hne
      have hf := drain_frame (env := env) hw
      exact ⟨e2, by rw [sp.tx.secret]; exact hf.secret.symm, by rw [sp.tx.sent]; exact hf.sent.symm,
        by rw [sp.tx.status, hs]; exact hn.symm⟩
    | read b =>
      simp only [Op.traffic, decide_eq_true_eq] at hop
      obtain ⟨e1, e2⟩ := read_same (env := env) sp.rx hop
      have hev : (step env r (.read b)).2 = (step env s (.read b)).2 := by
        simp only [step]; rw [e1]
      simp only [runSplit, runAll]
      rw [hev, tail]
      intro hne
      have hn := hnext hne
      have hf := readFrame env s b true
      refine ⟨e2, ?_, by rw [sp.tx.sent]; exact hf.sent.symm, by rw [sp.tx.status, hs]; exact hn.symm⟩
      rw [sp.tx.secret]
      rcases hf.secret with h' | ⟨⟨loc, h'⟩, -⟩
      · exact h'.symm
      · rw [hs] at h'; simp at h'
    | takeAck => simp [Op.traffic] at hop
    | connect _ _ => simp [Op.traffic] at hop
    | ack _ => simp [Op.traffic] at hop
    | clone => simp [Op.traffic] at hop
    | config _ => simp [Op.traffic] at hop

/-- **C34.** Let the original do all writing and its clone all reading and draining.  For every interleaving
`ops` of such calls, all outputs are those of a single layer, up to and including the first call that makes
the single layer fail. -/
theorem C34_split (hr : Run env st h s) (hc : s.tryClone.2 = .ok c) (ops : List Op)
    (ho : ∀ x ∈ ops, x.traffic = true) (hok : (runAll env s ops.dropLast).1.status = .success) :
    (runSplit env s.tryClone.1 c ops).2 = (runAll env s ops).2 := by
  obtain ⟨h1, -⟩ := C33_same hc
  obtain ⟨hs, rfl⟩ := tryClone_iff.mp hc
  rw [h1]
  exact split_events hr (w := { s with cloned := true })
    (r := { s with ackMsgRecvTooEarly := none, cloned := true, ephemeralKp := none, peerEpk := none, peerSigPubkey := none })
    ⟨⟨rfl, rfl, rfl, rfl, rfl⟩, ⟨rfl, rfl, rfl⟩⟩ hs ops ho hok

/-- Toy party B reads, drains and reads again. -/
example (oc : Bool) : ∃ h c, Run (Toy.env oc) Toy.stB h Toy.b4 ∧ Toy.b4.tryClone.2 = .ok c ∧
    (∀ x ∈ [Op.read (cipherOf Toy.cr Toy.key 3 [5]), .drain, .read (cipherOf Toy.cr Toy.key 4 [6]), .read [1, 2, 3, 4, 5]],
      x.traffic = true) ∧
    (runAll (Toy.env oc) Toy.b4 [Op.read (cipherOf Toy.cr Toy.key 3 [5]), .drain,
      .read (cipherOf Toy.cr Toy.key 4 [6])]).1.status = .success := by
  obtain ⟨h, hr⟩ := Toy.reach_b4 oc
  exact ⟨h, _, hr, rfl, by decide +kernel, by cases oc <;> decide +kernel⟩

/-- **C35.** After a successful `try_clone`, on the original, on the clone and on all further clones,
`change_config` always fails with `ForbidChangeConfAfterClone` and the configuration stays what it was. -/
theorem C35_frozen (hr : Run env st h s) (hc : s.tryClone.2 = .ok c) {x s' : Layer} {h' : List Event}
    (hx : x = s.tryClone.1 ∨ x = c) (hs : Steps env x h' s') :
    s'.config = s.config ∧ (∀ cf, s'.changeConfig cf = (s', .err .forbidChangeConfAfterClone)) ∧
    ∀ cf r, Event.config cf r ∈ h' → r = .err .forbidChangeConfAfterClone := by
  have refuse : ∀ y : Layer, y.cloned = true → ∀ cf, y.changeConfig cf = (y, .err .forbidChangeConfAfterClone) := by
    intro y hy cf
    unfold Layer.changeConfig
    rw [if_neg (by simp [hy])]
  suffices H : s'.config = s.config ∧ s'.cloned = true ∧
      ∀ cf r, Event.config cf r ∈ h' → r = .err .forbidChangeConfAfterClone from
    ⟨H.1, refuse s' H.2.1, H.2.2⟩
  obtain ⟨h1, -, -, -, -, h2, -, -, -, h3⟩ := C33_same hc
  have hx0 : x.config = s.config ∧ x.cloned = true ∧ Wf env st x := by
    rcases hx with rfl | rfl
    · refine ⟨by rw [h1], by rw [h1], (Wf.of_run hr).tryClone⟩
    · exact ⟨h2, h3, (Wf.of_run hr).clone hc⟩
  suffices H : (s'.config = s.config ∧ s'.cloned = true ∧
      ∀ cf r, Event.config cf r ∈ h' → r = .err .forbidChangeConfAfterClone) ∧ Wf env st s' from H.1
  induction hs with
  | refl => exact ⟨⟨hx0.1, hx0.2.1, by simp⟩, hx0.2.2⟩
  | @call s' h' hs op ih =>
    obtain ⟨⟨i1, i2, i3⟩, i4⟩ := ih
    obtain ⟨j1, j2⟩ := (step_conf (env := env) i4 op).1 i2
    refine ⟨⟨j2.trans i1, j1, ?_⟩, i4.step op⟩
    intro cf r hm
    rcases List.mem_append.mp hm with hm | hm
    · exact i3 cf r hm
    · simp only [List.mem_singleton] at hm
      cases op with
      | config cf' =>
        simp only [step] at hm
        rw [refuse s' i2] at hm
        simp only [Event.config.injEq] at hm
        exact hm.2
      | read b => simp [step] at hm
      | takeAck => simp [step] at hm
      | drain => simp [step] at hm
      | connect _ _ => simp [step] at hm
      | ack _ => simp [step] at hm
      | write _ _ => simp [step] at hm
      | clone => simp [step] at hm
  | @cloned s' c' h' hs hc' ih =>
    obtain ⟨⟨i1, i2, i3⟩, i4⟩ := ih
    obtain ⟨-, -, -, -, -, j2, -, -, -, j3⟩ := C33_same hc'
    refine ⟨⟨j2.trans i1, j3, ?_⟩, i4.clone hc'⟩
    intro cf r hm
    rcases List.mem_append.mp hm with hm | hm
    · exact i3 cf r hm
    · simp at hm

/-- **C35.** As long as no `try_clone` succeeded, `change_config` succeeds in every state. -/
theorem C35_free (hr : Run env st h s) (hn : Event.clone (.ok ()) ∉ h) (cf : Config) :
    s.changeConfig cf = ({ s with config := cf }, .ok ()) := by
  suffices H : s.cloned = false by
    unfold Layer.changeConfig
    rw [if_pos H]
  induction hr with
  | init hcr =>
    simp only [Layer.create, EphemeralKeyPair.generate, Res.bind_ok, Res.ok.injEq] at hcr
    rw [← hcr]
  | @call h s hr op ih =>
    simp only [List.mem_append, not_or] at hn
    have ih := ih hn.1
    cases op with
    | clone =>
      simp only [step] at hn ⊢
      by_cases hs : s.status = .success
      · have := hn.2
        unfold Layer.tryClone at this
        rw [if_pos hs] at this
        simp [unitRes] at this
      · rw [(C33_iff s).2 hs]; exact ih
    | config cf =>
      rw [(step_conf (Wf.of_run hr) (.config cf)).2.2 (by simp)]; exact ih
    | read b => rw [(step_conf (Wf.of_run hr) (.read b)).2.2 (by simp)]; exact ih
    | takeAck => rw [(step_conf (Wf.of_run hr) .takeAck).2.2 (by simp)]; exact ih
    | drain => rw [(step_conf (Wf.of_run hr) .drain).2.2 (by simp)]; exact ih
    | connect a b => rw [(step_conf (Wf.of_run hr) (.connect a b)).2.2 (by simp)]; exact ih
    | ack d => rw [(step_conf (Wf.of_run hr) (.ack d)).2.2 (by simp)]; exact ih
    | write d w => rw [(step_conf (Wf.of_run hr) (.write d w)).2.2 (by simp)]; exact ih
  | cloned hr hc ih => simp at hn

/-- The hypotheses of both parts are met by toy party B. -/
example (oc : Bool) : (∃ h c, Run (Toy.env oc) Toy.stB h Toy.b4 ∧ Toy.b4.tryClone.2 = .ok c ∧
      Steps (Toy.env oc) c [.config Config.default (.err .forbidChangeConfAfterClone)] c) ∧
    ∃ h, Run (Toy.env oc) Toy.stB h Toy.b4 ∧ Event.clone (.ok ()) ∉ h := by
  refine ⟨?_, ?_⟩
  · obtain ⟨h, hr⟩ := Toy.reach_b4 oc
    exact ⟨h, _, hr, rfl, (Steps.refl _).call (.config Config.default)⟩
  · have r := ((((Toy.run0 oc [2] none).call (.read (Toy.sign Toy.seedA Toy.conA))).call (.connect Toy.pkB none)).call
      (.ack none)).call (.read (Toy.sign Toy.seedA Toy.ackA))
    refine ⟨_, Eq.mp (congrArg _ ?_) r, ?_⟩ <;> cases oc <;> decide +kernel

/-- **C36.** Messages written by the original and by the clone carry the same number, under the same key. -/
theorem C36_collide (law : env.cr.Lawful) (hc : s.tryClone.2 = .ok c)
    {d1 d2 : Bytes} {w1 w2 w1' w2' : BufW} {s1 c1 : Layer} (hcap1 : 16 < w1.cap) (hcap2 : 16 < w2.cap)
    (h1 : s.tryClone.1.writeMessage env d1 w1 = (s1, w1', .ok ()))
    (h2 : c.writeMessage env d2 w2 = (c1, w2', .ok ())) :
    ∃ k, s.secret = some k ∧ w1'.stream = w1.stream ++ cipherOf env.cr k s.nextNonceSent d1 ∧
      w2'.stream = w2.stream ++ cipherOf env.cr k s.nextNonceSent d2 ∧
      s1.nextNonceSent = c1.nextNonceSent := by
  obtain ⟨e1, -⟩ := C33_same hc
  obtain ⟨hs, rfl⟩ := tryClone_iff.mp hc
  rw [e1] at h1
  have wr : ∀ (x x' : Layer) (d : Bytes) (w w' : BufW), 16 < w.cap → x.writeMessage env d w = (x', w', .ok ()) →
      ∃ k, x.secret = some k ∧ w'.stream = w.stream ++ cipherOf env.cr k x.nextNonceSent d ∧
        addU64 env.overflowChecks x.nextNonceSent 1 = some x'.nextNonceSent := by
    intro x x' d w w' hcap hx
    rcases writeMessage_cases env x d w with ⟨-, he⟩ | ⟨_, _, -, he⟩ | ⟨-, -, he⟩ |
      ⟨-, k, hk, ⟨w'', e, -, he⟩ | ⟨w'', hen, ⟨n, hn, he⟩ | ⟨-, he⟩⟩⟩ <;> rw [hx] at he <;>
      simp only [Prod.mk.injEq, reduceCtorEq, and_false] at he
    obtain ⟨rfl, rfl, -⟩ := he
    exact ⟨k, hk, (encrypt_ok law hcap hen).1, hn⟩
  obtain ⟨k, k1, k2, k3⟩ := wr _ _ _ _ _ hcap1 h1
  obtain ⟨k', k1', k2', k3'⟩ := wr _ _ _ _ _ hcap2 h2
  dsimp only at k1 k1' k2 k2' k3 k3'
  rw [k1] at k1'
  simp only [Option.some.injEq] at k1'
  subst k1'
  rw [k3] at k3'
  exact ⟨k, k1, k2, k2', by simpa using k3'⟩

/-- **C36.** No receiver delivers two messages with the same number, so one of them is lost. -/
theorem C36_one_delivered (law : env.cr.Lawful) (hr : Run env st h s) {k : SecretKey} (hk : s.secret = some k)
    (hb : env.overflowChecks = true ∨ (inputs h).length < 2 ^ 64) {h1 h2 h3 : List Event} {n : Nat} {d1 d2 : Bytes}
    {p q : Option Bytes} (hn : n < 2 ^ 64)
    (he : h = h1 ++ .read (cipherOf env.cr k n d1) (.ok (some (.message p))) ::
      (h2 ++ .read (cipherOf env.cr k n d2) (.ok (some (.message q))) :: h3)) : False := by
  obtain ⟨Ls, ha, hnd, -⟩ := C17_at_most_once hr hb
  rw [he] at ha
  obtain ⟨la, l1, lb, rfl, c1, hb1⟩ := forall₂_split ha
  obtain ⟨lc, l2, ld, rfl, c2, -⟩ := forall₂_split hb1
  obtain ⟨k', n1, q1, rfl, -, hn1, hk', e1⟩ := carries_read c1
  obtain ⟨k'', n2, q2, rfl, -, hn2, hk'', e2⟩ := carries_read c2
  rw [hk] at hk' hk''
  simp only [Option.some.injEq] at hk' hk''
  subst hk' hk''
  obtain ⟨rfl, -⟩ := cipherOf_inj law hn hn1 e1
  obtain ⟨rfl, -⟩ := cipherOf_inj law hn hn2 e2
  simp only [List.flatten_append, List.flatten_cons, List.map_append, List.map_cons,
    List.singleton_append] at hnd
  have := (List.nodup_append.mp hnd).2.1
  rw [List.nodup_cons] at this
  exact this.1 (by simp)

/-- **C36.** Replay protection is per clone: what the original delivered, the clone delivers again. -/
theorem C36_replay (hr : Run env st h s) (hc : s.tryClone.2 = .ok c) {inc : Bytes} {m : Message}
    (hm : inc.take 4 ≠ [0xE2, 0xC2, 0xE2, 0xD2]) (h1 : (s.tryClone.1.read env inc).2 = .ok (some m)) :
    (c.read env inc).2 = .ok (some m) := by
  obtain ⟨a1, a2⟩ := C33_alike (env := env) hr hc (op := .read inc) (by simpa [Op.traffic] using hm)
  rw [← a2] at a1
  simp only [step, Event.read.injEq, true_and] at a1
  rw [a1, h1]

/-- Two messages with the same number from a cloned toy party. -/
example (oc : Bool) : ∃ h c, Run (Toy.env oc) Toy.stB h Toy.b4 ∧ Toy.b4.tryClone.2 = .ok c ∧
    (∃ s1 w1, Toy.b4.tryClone.1.writeMessage (Toy.env oc) [1] Toy.sink = (s1, w1, .ok ())) ∧
    (∃ c1 w2, c.writeMessage (Toy.env oc) [2] Toy.sink = (c1, w2, .ok ())) ∧
    (Toy.b4.tryClone.1.read (Toy.env oc) (cipherOf Toy.cr Toy.key 3 [5])).2 = .ok (some (.message (some [5]))) := by
  obtain ⟨h, hr⟩ := Toy.reach_b4 oc
  refine ⟨h, _, hr, rfl, ?_, ?_, by cases oc <;> decide +kernel⟩
  · obtain ⟨w', h1, -⟩ := writeMessage_good (env := Toy.env oc) Toy.lawful (s := Toy.b4.tryClone.1) (k := Toy.key) [1]
      (w := Toy.sink) rfl rfl rfl (by decide) (by decide +kernel)
    exact ⟨_, _, h1⟩
  · obtain ⟨w', h1, -⟩ := writeMessage_good (env := Toy.env oc) Toy.lawful
      (s := { Toy.b4 with ackMsgRecvTooEarly := none, cloned := true, ephemeralKp := none, peerEpk := none, peerSigPubkey := none })
      (k := Toy.key) [2] (w := Toy.sink) rfl rfl rfl (by decide) (by decide +kernel)
    exact ⟨_, _, h1⟩

end
end Pkstl
