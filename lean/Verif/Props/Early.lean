import Verif.Lemmas.Early
import Verif.Props.Window
/- C22, C23: early user messages and authentication of user messages. -/
namespace Pkstl
open Spec

section
variable {env : Env} {st : Start} {h : List Event} {s : Layer}

theorem mem_delivers_read {inc : Bytes} {r : Res (Option Message)} {m : Message}
    (h : m ∈ (Event.read inc r).delivers) : r = .ok (some m) := by
  rcases r with (_ | m') | e | p <;> simp [Event.delivers] at h
  rw [h]

theorem mem_delivers_takeAck {r : Res (Option Message)} {m : Message}
    (h : m ∈ (Event.takeAck r).delivers) : r = .ok (some m) := by
  rcases r with (_ | m') | e | p <;> simp [Event.delivers] at h
  rw [h]

/-- **C22.** Between our ACK and the peer's ACK an authentic user message is taken without being delivered
and without failing the layer. -/
theorem C22_taken (law : env.cr.Lawful) (hr : Run env st h s)
    (hs : s.status = .ongoing .connectMsgSent .ackMsgSent) {k : SecretKey} (hk : s.secret = some k)
    (hks : ¬ ∀ i < 4, env.cr.keystream k.key k.nonce i = 0) {n : Nat} {p : Bytes} (hn : n < 2 ^ 64)
    (hlen : 26 + p.length < 2 ^ 64) :
    (s.read env (cipherOf env.cr k n p)).2 = .ok none ∧
    (s.read env (cipherOf env.cr k n p)).1.status = s.status := by
  obtain ⟨-, h0, h1, -⟩ := (Wf.of_run hr).fresh _ _ hs
  rw [cipherOf_eq, read_user_stack_eval p law hn hlen hks hk hs (by unfold Layer.seen; rw [h0, h1]; simp)]
  exact ⟨rfl, rfl⟩

/-- Toy party B is between the two ACKs. -/
example : Toy.Reach (Toy.env true) Toy.stB Toy.b3 ∧ Toy.b3.status = .ongoing .connectMsgSent .ackMsgSent ∧
    Toy.b3.secret = some Toy.key ∧ (¬ ∀ i < 4, Toy.cr.keystream Toy.key.key Toy.key.nonce i = 0) :=
  ⟨Toy.reach_b3 _, rfl, rfl, Toy.key_stream⟩

/-- **C22.** Draining before the peer's ACK delivers nothing and changes nothing. -/
theorem C22_drain_too_early (hr : Run env st h s) (hs : s.status = .ongoing .connectMsgSent .ackMsgSent) :
    s.drainTmpStack env = (s, .ok []) := drain_waiting (Wf.of_run hr) hs

/-- The state in which the ACK that completes the negotiation arrives. -/
theorem ack_completes (hr : Run env st h s) {e : Event} {h1 : List Event} (he : h = h1 ++ [e])
    (hack : ∃ m ∈ e.delivers, isAck m = true) (hs : s.status = .success) :
    ∃ s1, Run env st h1 s1 ∧ s1.status = .ongoing .connectMsgSent .ackMsgSent ∧ s.tmpStack = s1.tmpStack ∧
      s.secret = s1.secret ∧ s.nextNonceExpected = s1.nextNonceExpected ∧ s.orphanNonces = s1.orphanNonces := by
  obtain ⟨s1, s2, hr1, hs2, hr2, hop⟩ := hr.at (h2 := []) he
  have hs2' : s = s2 := by
    generalize hnil : ([] : List Event) = l at hs2
    cases hs2 with
    | refl => rfl
    | call => simp at hnil
    | cloned => simp at hnil
  subst hs2'
  have hw1 := Wf.of_run hr1
  obtain ⟨m, hm, hma⟩ := hack
  rcases hop with ⟨op, he1, he2⟩ | ⟨he1, -⟩
  swap
  · subst he1; simp [Event.delivers] at hm
  refine ⟨s1, hr1, ?_⟩
  have hstat : s1.status = .ongoing .connectMsgSent .ackMsgSent := by
    have heff := step_effect (env := env) hw1 op
    rw [← he1, ← he2, hs] at heff
    generalize s1.status = t at heff
    generalize htt : Status.success = t' at heff
    cases heff with
    | quiet _ _ _ h3 => obtain ⟨d, rfl, -⟩ := h3 m hm; simp [isAck] at hma
    | createsConnect => simp [Event.delivers] at hm
    | createsAck => simp [Event.delivers] at hm
    | acceptsConnect _ h3 => have := h3 m hm; cases m <;> simp_all [isAck, isConnect]
    | @acceptsAck rem _ _ _ _ =>
      split at htt
      · rename_i h; rw [h]
      · simp at htt
  refine ⟨hstat, ?_⟩
  have rd : ∀ {t : Layer} (inc : Bytes), t.tmpStack = s1.tmpStack → t.secret = s1.secret → t.status = s1.status →
      t.nextNonceExpected = s1.nextNonceExpected → t.orphanNonces = s1.orphanNonces →
      s = (t.read env inc).1 → (t.read env inc).2 = .ok (some m) →
      s.tmpStack = s1.tmpStack ∧ s.secret = s1.secret ∧ s.nextNonceExpected = s1.nextNonceExpected ∧
        s.orphanNonces = s1.orphanNonces := by
    intro t inc h1 h2 h3 h4 h5 h6 h7
    have hno : ∀ d n, readerRead env t.secret inc true = .ok d → d.msgTypeHeaders ≠ .userMsg n := by
      intro d n hp hh
      unfold Layer.read Layer.readInner at h7
      rw [hp] at h7
      dsimp only at h7
      rw [hh] at h7
      obtain ⟨_, -, -, -, -, h8, -⟩ := readUser_inv (user_stackable hp hh) hh h7
      rw [h8] at hma
      simp [isAck] at hma
    obtain ⟨i1, i2, i3, -⟩ := read_nonuser_window env t inc true hno
    rw [h6]
    refine ⟨i3.trans h1, ?_, i1.trans h4, i2.trans h5⟩
    rcases (readFrame env t inc true).secret with h8 | ⟨⟨loc, h8⟩, -⟩
    · exact h8.trans h2
    · rw [h3, hstat] at h8; simp at h8
  cases op with
  | read inc =>
    simp only [step] at he1 he2
    subst he1
    refine rd (t := s1) inc rfl rfl rfl rfl rfl he2 ?_
    exact mem_delivers_read hm
  | takeAck =>
    simp only [step] at he1 he2
    subst he1
    rcases takeAck_cases env s1 with ⟨-, he⟩ | ⟨b, hb, he⟩
    · rw [he] at hm; simp [Event.delivers] at hm
    · rw [he] at hm he2
      refine rd (t := { s1 with ackMsgRecvTooEarly := none }) b rfl rfl rfl rfl rfl he2 ?_
      exact mem_delivers_takeAck hm
  | drain =>
    simp only [step] at he1 he2
    rw [drain_waiting hw1 hstat] at he1
    subst he1
    simp [Event.delivers] at hm
  | connect pk d => simp only [step] at he1; subst he1; simp [Event.delivers] at hm
  | ack d => simp only [step] at he1; subst he1; simp [Event.delivers] at hm
  | clone => simp only [step] at he1; subst he1; simp [Event.delivers] at hm
  | config c => simp only [step] at he1; subst he1; simp [Event.delivers] at hm
  | write d w => simp only [step] at he1; subst he1; simp [Event.delivers] at hm

/-- The plaintexts behind equal lists of ciphertexts. -/
theorem seal_map_inj {cr : Crypto} (law : cr.Lawful) {k : SecretKey} {a b : List Bytes}
    (h : a.map (aeadSeal cr k) = b.map (aeadSeal cr k)) : a = b := by
  refine List.map_injective_iff.mpr ?_ h
  intro x y hxy
  have h1 := decrypt_aeadSeal (env := ⟨cr, true⟩) law k x
  have h2 := decrypt_aeadSeal (env := ⟨cr, true⟩) law k y
  dsimp only at h1 h2 hxy
  rw [hxy, h2] at h1
  simpa using h1.symm

/-- **C22.** Consider any history that ends with the delivery of the ACK that completes the negotiation.
If the encrypted inputs answered with `Ok(None)` until then were different authentic messages, none of them
overtaken by more than 10000 others, then draining delivers exactly these messages in order of arrival,
and each of them only once. -/
theorem C22_delivered (law : env.cr.Lawful) (hr : Run env st h s) {e : Event} {h1 : List Event}
    (he : h = h1 ++ [e]) (hack : ∃ m ∈ e.delivers, isAck m = true) (hs : s.status = .success)
    {k : SecretKey} (hk : s.secret = some k) (l : List (Nat × Bytes))
    (hl : ∀ x ∈ l, x.1 < 2 ^ 64 ∧ 26 + x.2.length < 2 ^ 64) (hlen : l.length < 2 ^ 64)
    (hearly : early h1 = l.map fun x => cipherOf env.cr k x.1 x.2)
    (hnd : (l.map Prod.fst).Nodup) (hov : ∀ m, (overtakers (l.map Prod.fst) m).length ≤ 10000) :
    ∃ s', s.drainTmpStack env = (s', .ok (l.map fun x => .message (present x.2))) ∧
      s'.drainTmpStack env = (s', .ok []) ∧
      ((¬ ∀ i < 4, env.cr.keystream k.key k.nonce i = 0) → ∀ x ∈ l,
        s'.read env (cipherOf env.cr k x.1 x.2) = (s', .err (.recvInvalidMsg .invalidNonce))) := by
  obtain ⟨s1, hr1, hs1, t1, t2, t3, t4⟩ := ack_completes hr he hack hs
  have hw1 := Wf.of_run hr1
  obtain ⟨-, z0, z1, -⟩ := hw1.fresh _ _ hs1
  have hst := stack_eq hr1 _ _ hs1
  rw [← t2, hk, hearly] at hst
  have hst' : s1.tmpStack = l.map fun x => userPlain env.cr x.1 x.2 := by
    apply seal_map_inj law (k := k)
    rw [List.map_map]
    exact hst
  have hD : Knows { s with tmpStack := [] } [] := by
    refine ⟨by simp, fun m => ?_⟩
    simp [Layer.seen, t3, t4, z0, z1]
  obtain ⟨e', O, d1, d2, d3⟩ := drainLoop_flow law l [] (s := { s with tmpStack := [] }) (D := []) hs
    ((Wf.of_run hr).win.congr rfl rfl) hD hl (by simpa [u64Size] using hlen)
    ((flow_iff [] (l.map Prod.fst) (by simpa using hnd) (by simp)).mpr fun m _ => by simpa using hov m)
  have hdr : s.drainTmpStack env =
      ({ s with tmpStack := [], nextNonceExpected := e', orphanNonces := O }, .ok (l.map msgOf)) := by
    unfold Layer.drainTmpStack
    rw [t1, hst', d1]
    rfl
  refine ⟨_, hdr, rfl, fun hks x hx => ?_⟩
  refine read_user_replay_eval x.2 law (hl x hx).1 (hl x hx).2 hks hk ?_
  have := d3.seen x.1
  simp only [List.nil_append] at this
  exact this.mpr (List.mem_map.mpr ⟨x, hx, rfl⟩)

/-- Toy party B takes two early messages, the application drains too early, the ACK comes. -/
example (oc : Bool) : ∃ h1 e s, Run (Toy.env oc) Toy.stB (h1 ++ [e]) s ∧ (∃ m ∈ e.delivers, isAck m = true) ∧
    s.status = .success ∧ s.secret = some Toy.key ∧
    early h1 = [(1, [5]), (0, [6])].map (fun x => cipherOf Toy.cr Toy.key x.1 x.2) ∧
    (∀ m, (overtakers ([(1, [5]), (0, [6])].map Prod.fst) m).length ≤ 10000) := by
  obtain ⟨h, hr, hz⟩ := Toy.hist_b3 oc
  have r := (((hr.call (.read (cipherOf Toy.cr Toy.key 1 [5]))).call .drain).call
    (.read (cipherOf Toy.cr Toy.key 0 [6]))).call (.read (Toy.sign Toy.seedA Toy.ackA))
  refine ⟨_, _, _, r, ?_, ?_, ?_, ?_, ?_⟩
  · cases oc <;> decide +kernel
  · cases oc <;> decide +kernel
  · cases oc <;> decide +kernel
  · rw [early_append, early_append, early_append, hz]
    cases oc <;> decide +kernel
  · intro m
    unfold overtakers
    exact (List.length_filter_le _ _).trans ((List.takeWhile_sublist _).length_le.trans (by decide))

/-- **C23.** Every delivered user message was received as a ciphertext whose tag and hash are correct under
the session key, and a message delivered by `read` is exactly the one `read` was given. -/
theorem C23_authentic (hr : Run env st h s) {h1 h2 : List Event} {e : Event} (he : h = h1 ++ e :: h2)
    {p : Option Bytes} (hm : .message p ∈ e.delivers) :
    ∃ k n q, s.secret = some k ∧ n < 2 ^ 64 ∧ p = present q ∧ cipherOf env.cr k n q ∈ inputs (h1 ++ [e]) ∧
      ∀ inc r, e = .read inc r → inc = cipherOf env.cr k n q := by
  obtain ⟨s1, s2, hr1, hs2, hr2, ⟨op, he1, he2⟩ | ⟨he1, -⟩⟩ := hr.at he
  swap
  · subst he1; simp [Event.delivers] at hm
  have hw1 := Wf.of_run hr1
  have hsec : ∀ k, s1.secret = some k → s.secret = some k := fun k hk =>
    (C14_secret_stable hr2 hs2).2 k (by rw [he2]; exact (stepFrame hw1 op).secret k hk)
  cases op with
  | read inc =>
    simp only [step] at he1
    subst he1
    have hrd : (s1.readInner env inc true).2 = .ok (some (.message p)) := mem_delivers_read hm
    obtain ⟨k, n, q, -, hk, -, hn, hinc, -, hp, -⟩ := read_user_inv hw1 hrd
    refine ⟨k, n, q, hsec k hk, hn, hp, ?_, ?_⟩
    · rw [cipherOf_eq, ← hinc, inputs_append]; simp [inputs]
    · intro inc' r hr'
      simp only [Event.read.injEq] at hr'
      rw [← hr'.1]; exact hinc
  | drain =>
    simp only [step] at he1
    subst he1
    rcases hq : (s1.drainTmpStack env).2 with l | e | q <;> rw [hq] at hm <;> simp [Event.delivers] at hm
    rcases drainLoop_origin _ _ l hw1.stackP hq _ hm with h | ⟨n, q, h3, h4, h5⟩
    · simp at h
    · obtain ⟨k, h6, h7⟩ := (Prov.of_run hr1).stack _ h5
      simp only [Message.message.injEq] at h4
      exact ⟨k, n, q, hsec k h6, h3, h4, by rw [inputs_append]; simp [cipherOf_eq, h7], by simp⟩
  | takeAck =>
    simp only [step] at he1
    subst he1
    rcases takeAck_cases env s1 with ⟨-, he⟩ | ⟨b, hb, he⟩
    · rw [he] at hm; simp [Event.delivers] at hm
    · rw [he] at hm
      have hrd : (Layer.readInner env { s1 with ackMsgRecvTooEarly := none } b true).2 = .ok (some (.message p)) :=
        mem_delivers_takeAck hm
      obtain ⟨k, n, q, -, hk, -, hn, hinc, hne, -⟩ := read_user_inv (clear_ack hw1) hrd
      exact absurd (hw1.ackP b hb).1 hne
  | connect pk d => simp only [step] at he1; subst he1; simp [Event.delivers] at hm
  | ack d => simp only [step] at he1; subst he1; simp [Event.delivers] at hm
  | clone => simp only [step] at he1; subst he1; simp [Event.delivers] at hm
  | config c => simp only [step] at he1; subst he1; simp [Event.delivers] at hm
  | write d w => simp only [step] at he1; subst he1; simp [Event.delivers] at hm

/-- Toy party B delivers a user message. -/
example : ∃ h1 e s, Run (Toy.env true) Toy.stB (h1 ++ [e]) s ∧ .message (some [5]) ∈ e.delivers := by
  obtain ⟨h, hr, -⟩ := Toy.hist_b4 true
  exact ⟨_, _, _, hr.call (.read (cipherOf Toy.cr Toy.key 3 [5])), by decide +kernel⟩

/-- **C23.** Hence, if the network only ever presents valid ciphertexts of messages in `W` (what holders of
the key have written), every delivered payload belongs to a message in `W`. -/
theorem C23_only_written (hr : Run env st h s) (W : List (Nat × Bytes))
    (hforge : ∀ k n q, s.secret = some k → n < 2 ^ 64 → cipherOf env.cr k n q ∈ inputs h → (n, q) ∈ W) :
    ∀ p ∈ userPayloads (deliveries h), ∃ x ∈ W, p = present x.2 := by
  intro p hp
  unfold userPayloads at hp
  obtain ⟨m, hm, hmp⟩ := List.mem_filterMap.mp hp
  obtain ⟨e, he, hme⟩ := List.mem_flatMap.mp hm
  cases m with
  | message d =>
    simp only [Option.some.injEq] at hmp
    subst hmp
    obtain ⟨h1, h2, heq⟩ := List.append_of_mem he
    obtain ⟨k, n, q, hk, hn, hpq, hin, -⟩ := C23_authentic hr heq hme
    refine ⟨(n, q), hforge k n q hk hn ?_, hpq⟩
    rw [heq, show h1 ++ e :: h2 = (h1 ++ [e]) ++ h2 by simp, inputs_append]
    exact List.mem_append_left _ hin
  | connect _ _ _ => simp at hmp
  | ack _ => simp at hmp

/-- A toy session in which one message was written and delivered: the hypothesis of `C23_only_written` holds. -/
example (oc : Bool) : ∃ (h : List Event) (s : Layer), Run (Toy.env oc) Toy.stB h s ∧
    .read (cipherOf Toy.cr Toy.key 0 [5]) (.ok (some (.message (some [5])))) ∈ h ∧
    ∀ k n q, s.secret = some k → n < 2 ^ 64 → cipherOf Toy.cr k n q ∈ inputs h → (n, q) ∈ [(0, [5])] := by
  have s1 : ((Toy.layer0 [2] none).read (Toy.env oc) (Toy.sign Toy.seedA Toy.conA)).1 = Toy.b1 := by
    cases oc <;> decide +kernel
  have s4 : (Toy.b3.read (Toy.env oc) (Toy.sign Toy.seedA Toy.ackA)).1 = Toy.b4 := by cases oc <;> decide +kernel
  have s5 : Toy.b4.read (Toy.env oc) (cipherOf Toy.cr Toy.key 0 [5]) =
      ({ Toy.b4 with nextNonceExpected := 1 }, .ok (some (.message (some [5])))) :=
    Prod.ext (by cases oc <;> decide +kernel) (by cases oc <;> decide +kernel)
  have r0 : Run (Toy.env oc) Toy.stB [] (Toy.layer0 [2] none) := .init rfl
  have r1 := r0.call (.read (Toy.sign Toy.seedA Toy.conA))
  simp only [step, s1] at r1
  have r2 := r1.call (.connect Toy.pkB none)
  rw [show (step (Toy.env oc) Toy.b1 (.connect Toy.pkB none)).1 = Toy.b2 from rfl] at r2
  have r3 := r2.call (.ack none)
  rw [show (step (Toy.env oc) Toy.b2 (.ack none)).1 = Toy.b3 from rfl] at r3
  have r4 := r3.call (.read (Toy.sign Toy.seedA Toy.ackA))
  simp only [step, s4] at r4
  have r5 := r4.call (.read (cipherOf Toy.cr Toy.key 0 [5]))
  simp only [step, s5] at r5
  refine ⟨_, _, r5, by simp, ?_⟩
  intro k n q hk hn hin
  have hk : k = Toy.key := by
    have : some Toy.key = some k := hk
    exact (Option.some.inj this).symm
  subst hk
  have hhead : (cipherOf Toy.cr Toy.key n q).head? = some 0xE3 := by
    simp only [cipherOf, aeadSeal, xorKeystream, userFrame, frame, List.cons_append, List.mapIdx_cons, List.head?_cons]
    rfl
  simp only [inputs, List.filterMap_append, List.filterMap_cons, List.filterMap_nil, List.append_nil,
    List.nil_append, List.mem_append, List.mem_singleton, List.not_mem_nil, or_false, false_or] at hin
  have hother : ∀ b : Bytes, b.head? = some 0xE2 → cipherOf Toy.cr Toy.key n q ≠ b := by
    intro b hb he
    rw [he, hb] at hhead
    exact absurd hhead (by decide)
  rcases hin with (hin | hin) | hin
  · exact absurd hin (hother _ rfl)
  · exact absurd hin (hother _ rfl)
  · obtain ⟨rfl, rfl⟩ := cipherOf_inj Toy.lawful hn (by decide) hin
    simp

end
end Pkstl
