import Verif.Lemmas.WindowSpec
/- Early user messages: what the stack holds and what draining it yields. -/
namespace Pkstl
open Spec

section
variable {env : Env} {st : Start} {h : List Event} {s : Layer}

theorem early_append (h h' : List Event) : early (h ++ h') = early h ++ early h' := by simp [early]

/-- What `Ok(None)` means. -/
theorem read_none_cases (env : Env) (s : Layer) (inc : Bytes) :
    (∃ x k, s.read env inc = ({ s with tmpStack := s.tmpStack ++ [x] }, .ok none) ∧
      s.status = .ongoing .connectMsgSent .ackMsgSent ∧ s.secret = some k ∧ inc = aeadSeal env.cr k x ∧
      inc.take 4 ≠ MAGIC_VALUE) ∨
    ((s.read env inc).1.tmpStack = s.tmpStack ∧ ((s.read env inc).2 = .ok none → inc.take 4 = MAGIC_VALUE)) := by
  unfold Layer.read
  have hcase := readInner_case env s inc true
  have hf := readFrame env s inc true
  rcases hrr : s.readInner env inc true with ⟨s', r⟩
  rw [hrr] at hcase hf
  dsimp only at hcase hf
  have same : s'.tmpStack = s.tmpStack → r ≠ .ok none → _ := fun h1 h2 =>
    (Or.inr ⟨h1, fun h => absurd h h2⟩ : (∃ x k, (s', r) = ({ s with tmpStack := s.tmpStack ++ [x] }, .ok none) ∧
      s.status = .ongoing .connectMsgSent .ackMsgSent ∧ s.secret = some k ∧ inc = aeadSeal env.cr k x ∧
      inc.take 4 ≠ MAGIC_VALUE) ∨
    ((s', r).1.tmpStack = s.tmpStack ∧ ((s', r).2 = .ok none → inc.take 4 = MAGIC_VALUE)))
  have nonce : ∀ {n r'}, s.updateNonces env n = (s', r') → s'.tmpStack = s.tmpStack := by
    intro n r' hu
    obtain ⟨O', n', t, h1, -⟩ := updateNonces_frame env s n
    rw [hu] at h1
    dsimp only at h1
    rw [h1]
  cases hcase with
  | userStacked hp hh hn hs =>
    obtain ⟨k, h1, h2, h3, -⟩ := user_sealed hp hh
    exact .inl ⟨_, k, rfl, hs, h1, h2, h3⟩
  | ackStored hp hh hc hk ha => exact .inr ⟨rfl, fun _ => (ack_clear hp hh (.inl rfl)).1⟩
  | connectOk => exact same rfl getMessage_ne_none
  | connectNoKp =>
    refine same rfl ?_
    split
    · exact getMessage_ne_none
    · simp
  | ackOk => exact same rfl getMessage_ne_none
  | userOk hp hh hn hs hl hv hu => exact same (nonce hu) getMessage_ne_none
  | userNonceErr hp hh hn hs hl hv hu => exact same (nonce hu) (by simp)
  | userNoncePanic hp hh hn hs hl hv hu => exact same (nonce hu) (by simp)
  | _ => exact same rfl (by simp)

/-- Draining while the peer's ACK is missing puts everything back. -/
theorem drainLoop_waiting (bs : List Bytes) (ms : List Message) (hb : Stackable env bs)
    (hs : s.status = .ongoing .connectMsgSent .ackMsgSent) (h0 : s.nextNonceExpected = 0) (h1 : s.orphanNonces = ∅) :
    s.drainLoop env bs ms = ({ s with tmpStack := s.tmpStack ++ bs }, .ok ms) := by
  induction bs generalizing s with
  | nil => unfold Layer.drainLoop; simp
  | cons b bs ih =>
    obtain ⟨n, d, hp, hh⟩ := hb b (by simp)
    have hd : d.data = b := (parseClear_iff.mp hp).1
    unfold Layer.drainLoop
    rw [readInner_stacked s hp hh]
    have : s.readUser env d n = ({ s with tmpStack := s.tmpStack ++ [b] }, .ok none) := by
      unfold Layer.readUser
      rw [if_neg (by rw [h0, h1]; simp), hs]
      simp only [Status.applyAction, and_self, if_true, hd]
    rw [this]
    dsimp only
    rw [ih (s := { s with tmpStack := s.tmpStack ++ [b] }) (fun b hm => hb b (by simp [hm])) hs h0 h1]
    simp

theorem drain_waiting (hw : Wf env st s) (hs : s.status = .ongoing .connectMsgSent .ackMsgSent) :
    s.drainTmpStack env = (s, .ok []) := by
  obtain ⟨-, h0, h1, -⟩ := hw.fresh _ _ hs
  unfold Layer.drainTmpStack
  rw [drainLoop_waiting (s := { s with tmpStack := [] }) _ _ hw.stackP hs h0 h1]
  simp

/-- Encrypted with the session key, if there is one. -/
def sealWith (cr : Crypto) (sec : Option SecretKey) (b : Bytes) : Bytes :=
  match sec with
  | some k => aeadSeal cr k b
  | none => b

/-- While the negotiation goes on, the stack holds exactly the early user messages of the history. -/
theorem stack_eq (hr : Run env st h s) :
    ∀ loc rem, s.status = .ongoing loc rem → s.tmpStack.map (sealWith env.cr s.secret) = early h := by
  induction hr with
  | init h =>
    intro _ _ _
    simp only [Layer.create, EphemeralKeyPair.generate, Res.bind_ok, Res.ok.injEq] at h
    subst h
    rfl
  | @cloned h s c hr hc ih =>
    intro loc rem hs
    obtain ⟨h1, rfl⟩ := tryClone_ok hc
    change s.status = _ at hs
    rw [h1] at hs
    simp at hs
  | @call h s hr op ih =>
    intro loc rem hs
    have hw := Wf.of_run hr
    obtain ⟨loc', rem', hs'⟩ : ∃ loc' rem', s.status = .ongoing loc' rem' := by
      have heff := step_effect (env := env) hw op
      generalize hs1 : s.status = t at heff
      generalize (step env s op).2 = e at heff
      generalize hs2 : (step env s op).1.status = t' at heff hs
      cases heff with
      | quiet h => 
        rcases h with h | h
        · exact ⟨loc, rem, by rw [← h]; exact hs⟩
        · rw [hs] at h; simp at h
      | createsConnect => exact ⟨_, _, rfl⟩
      | createsAck => exact ⟨_, _, rfl⟩
      | acceptsConnect h => exact ⟨_, _, rfl⟩
      | acceptsAck h => exact ⟨_, _, rfl⟩
    have ih := ih _ _ hs'
    rw [early_append]
    have same : (step env s op).1.tmpStack = s.tmpStack → (step env s op).1.secret = s.secret →
        early [(step env s op).2] = [] →
        (step env s op).1.tmpStack.map (sealWith env.cr (step env s op).1.secret) =
          early h ++ early [(step env s op).2] := by
      intro h1 h2 h3
      rw [h1, h2, h3, ih]; simp
    have rd : ∀ {t : Layer} (inc : Bytes), t.tmpStack = s.tmpStack → t.secret = s.secret → t.status = s.status →
        (t.read env inc).1.tmpStack = t.tmpStack →
        (t.read env inc).1.tmpStack.map (sealWith env.cr (t.read env inc).1.secret) = early h := by
      intro t inc h1 h2 h3 h4
      rw [h4, h1]
      rcases (readFrame env t inc true).secret with h5 | ⟨⟨loc, h5⟩, -⟩
      · unfold Layer.read
        rw [h5, h2, ih]
      · have : s.tmpStack = [] := by
          by_contra hne
          rw [h3] at h5
          rcases hw.stack hne with h | h | h <;> rw [h5] at h <;> simp at h
        rw [this] at ih ⊢
        exact ih
    cases op with
    | read inc =>
      simp only [step]
      rcases read_none_cases env s inc with ⟨x, k, h1, h2, h3, h4, h5⟩ | ⟨h1, h2⟩
      · rw [h1]
        have h5' : inc.take 4 ≠ [0xE2, 0xC2, 0xE2, 0xD2] := h5
        have he : early [.read inc (.ok none)] = [inc] := by
          simp only [early, List.filterMap_cons, List.filterMap_nil, h5', if_false]
        rw [he]
        simp only [List.map_append, ih, List.map_cons, List.map_nil]
        rw [h3, h4]; rfl
      · rw [rd inc rfl rfl rfl h1]
        have : early [.read inc (s.read env inc).2] = [] := by
          rcases hrr : (s.read env inc).2 with (_ | m) | e | p
          · have := h2 hrr
            have h3 : inc.take 4 = [0xE2, 0xC2, 0xE2, 0xD2] := this
            simp only [early, List.filterMap_cons, List.filterMap_nil, h3, if_true]
          all_goals rfl
        rw [this]; simp
    | takeAck =>
      simp only [step]
      rw [show early [Event.takeAck (s.takeAck env).2] = [] from rfl, List.append_nil]
      rcases takeAck_cases env s with ⟨-, he⟩ | ⟨b, hb, he⟩
      · rw [he]; exact ih
      · rw [he]
        refine rd (t := { s with ackMsgRecvTooEarly := none }) b rfl rfl rfl ?_
        have hm : b.take 4 = MAGIC_VALUE := (hw.ackP b hb).1
        rcases read_none_cases env { s with ackMsgRecvTooEarly := none } b with ⟨x, k, -, -, -, -, h⟩ | ⟨h, -⟩
        · exact absurd hm h
        · exact h
    | drain =>
      simp only [step]
      rw [show early [Event.drain (s.drainTmpStack env).2] = [] from rfl, List.append_nil]
      by_cases hne : s.tmpStack = []
      · have : s.drainTmpStack env = (s, .ok []) := by
          unfold Layer.drainTmpStack
          rw [hne]
          simp only [Layer.drainLoop]
          rw [← hne]
        rw [this]; exact ih
      · rcases hw.stack hne with h | h | h
        · rw [drain_waiting hw h]; exact ih
        · rw [hs'] at h; simp at h
        · rw [hs'] at h; simp at h
    | connect pk d =>
      rcases createConnect_cases env s pk d with ⟨rem, -, he⟩ | ⟨-, he⟩ <;>
        exact same (by simp only [step, he]) (by simp only [step, he]) rfl
    | ack d =>
      rcases createAck_cases env s d with ⟨rem, -, he⟩ | ⟨-, he⟩ <;>
        exact same (by simp only [step, he]) (by simp only [step, he]) rfl
    | clone =>
      refine same ?_ ?_ rfl <;> simp only [step, Layer.tryClone] <;> split <;> rfl
    | config c =>
      refine same ?_ ?_ rfl <;> simp only [step, Layer.changeConfig] <;> split <;> rfl
    | write d w =>
      rcases writeMessage_cases env s d w with ⟨-, he⟩ | ⟨_, _, -, he⟩ | ⟨-, -, he⟩ |
          ⟨hs, k, hk, ⟨w', e, -, he⟩ | ⟨w', -, ⟨n, hn, he⟩ | ⟨-, he⟩⟩⟩ <;>
        exact same (by simp only [step, he]) (by simp only [step, he]) rfl

/-- Draining a stack of authentic messages on a negotiated layer. -/
theorem drainLoop_flow (law : env.cr.Lawful) (l : List (Nat × Bytes)) (ms : List Message) {s : Layer} {D : List Nat}
    (hs : s.status = .success) (hw : WinOk s) (hD : Knows s D)
    (hl : ∀ x ∈ l, x.1 < 2 ^ 64 ∧ 26 + x.2.length < 2 ^ 64) (hroom : D.length + l.length < u64Size)
    (hf : Flow D (l.map Prod.fst)) :
    ∃ e O, s.drainLoop env (l.map fun x => userPlain env.cr x.1 x.2) ms =
      ({ s with nextNonceExpected := e, orphanNonces := O }, .ok (ms ++ l.map msgOf)) ∧
      WinOk { s with nextNonceExpected := e, orphanNonces := O } ∧
      Knows { s with nextNonceExpected := e, orphanNonces := O } (D ++ l.map Prod.fst) := by
  induction l generalizing s D ms with
  | nil => 
    simp only [List.map_nil, List.append_nil]
    exact ⟨s.nextNonceExpected, s.orphanNonces, by unfold Layer.drainLoop; rfl, hw, hD⟩
  | cons x l ih =>
    have hx := hl x (by simp)
    rw [List.length_cons] at hroom
    simp only [List.map_cons, Flow] at hf ⊢
    obtain ⟨⟨hnD, hdel⟩, hf2⟩ := hf
    have hfr : ¬ s.seen x.1 := fun h => hnD ((hD.seen _).mp h)
    have hcard := hD.card hw
    unfold Layer.drainLoop
    rw [readInner_stacked_eval x.2 law hx.1 hx.2 hs hfr]
    rcases updateNonces_spec env s x.1 hw hx.1 hfr with ⟨O', n', h1, h2, h3, h4⟩ | ⟨h0, h1, h2, h3⟩ |
      ⟨h0, h1, h2, h3⟩ | ⟨h0, h00, h1⟩
    · rw [h1]
      dsimp only
      have hk : Knows { s with nextNonceExpected := n', orphanNonces := O' } (D ++ [x.1]) := by
        refine ⟨?_, ?_⟩
        · rw [List.nodup_append]
          refine ⟨hD.nodup, by simp, ?_⟩
          intro a ha b hb hab
          simp only [List.mem_singleton] at hb
          exact hnD (by rw [← hb, ← hab]; exact ha)
        · intro m
          have := h3 m
          simp only [Layer.seen, List.mem_append, List.mem_singleton] at *
          rw [this, ← hD.seen m]
          rfl
      obtain ⟨e, O, i1, i2, i3⟩ := ih (ms ++ [.message (present x.2)])
        (s := { s with nextNonceExpected := n', orphanNonces := O' }) hs h2 hk
        (fun y hy => hl y (by simp [hy])) (by simp; omega) hf2
      refine ⟨e, O, ?_, i2, by simpa using i3⟩
      rw [i1]
      simp [msgOf]
    · omega
    · omega
    · exfalso
      rcases hdel with hdel | hdel
      · exact h0 ((hD.isNext hw hnD).mpr hdel)
      · rw [hD.pending hw] at hdel
        omega

/-- Every message drained is the payload of a stacked message. -/
theorem drainLoop_origin (bs : List Bytes) (ms l : List Message) (hb : Stackable env bs)
    (hr : (s.drainLoop env bs ms).2 = .ok l) :
    ∀ m ∈ l, m ∈ ms ∨ ∃ n p, n < u64Size ∧ m = .message (present p) ∧ userPlain env.cr n p ∈ bs := by
  induction bs generalizing s ms with
  | nil =>
    unfold Layer.drainLoop at hr
    simp only [Res.ok.injEq] at hr
    subst hr
    exact fun m hm => .inl hm
  | cons b bs ih =>
    obtain ⟨n, d, hp, hh⟩ := hb b (by simp)
    have hb2 : Stackable env bs := fun b hm => hb b (by simp [hm])
    unfold Layer.drainLoop at hr
    rw [readInner_stacked s hp hh] at hr
    intro m hm
    rcases hq : s.readUser env d n with ⟨s', (_ | m') | e | q⟩ <;> rw [hq] at hr
    · rcases ih _ hb2 hr m hm with h | ⟨n, p, h1, h2, h3⟩
      · exact .inl h
      · exact .inr ⟨n, p, h1, h2, by simp [h3]⟩
    · rcases ih _ hb2 hr m hm with h | ⟨n, p, h1, h2, h3⟩
      · rcases List.mem_append.mp h with h | h
        · exact .inl h
        · obtain ⟨payload, -, -, h1, h2, h3, -⟩ := readUser_inv hp hh (by rw [hq])
          simp only [List.mem_singleton] at h
          subst h
          exact .inr ⟨n, payload, h1, h3, by rw [h2]; simp⟩
      · exact .inr ⟨n, p, h1, h2, by simp [h3]⟩
    · simp at hr
    · simp at hr

end
end Pkstl
