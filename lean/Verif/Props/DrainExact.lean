import Verif.Props.Robust
import Verif.Spec.Drain
/- C32: the exact outcome of draining. -/
namespace Pkstl
open Spec

theorem flow_append (D l : List Nat) (n : Nat) : Flow D (l ++ [n]) ↔ Flow D l ∧ Deliverable (D ++ l) n := by
  induction l generalizing D with
  | nil => simp [Flow]
  | cons m l ih => simp [Flow, ih, and_assoc]

theorem Spec.Orderly.flow {l : List (Nat × Bytes)} (h : Orderly l) : Flow [] (l.map Prod.fst) :=
  (flow_iff [] (l.map Prod.fst) (by simpa using h.1) (by simp)).mpr fun m _ => by simpa using h.2 m

theorem orderly_of_flow {l : List (Nat × Bytes)} (hnd : (l.map Prod.fst).Nodup) (h : Flow [] (l.map Prod.fst)) : Orderly l :=
  ⟨hnd, fun m => by simpa using (flow_iff [] (l.map Prod.fst) (by simpa using hnd) (by simp)).mp h m (by simp)⟩

/-- Draining has an outcome for every list of early messages. -/
theorem drained_total (l : List (Nat × Bytes)) : ∃ r, Drained l r := by
  induction l using List.reverseRecOn with
  | nil => exact ⟨_, .all ⟨by simp, by simp [overtakers]⟩⟩
  | append_singleton l x ih =>
    obtain ⟨r, hr⟩ := ih
    cases hr with
    | all h =>
      by_cases hx : x.1 ∈ l.map Prod.fst
      · exact ⟨_, .repeated rfl h hx⟩
      · by_cases hf : Orderly (l ++ [x])
        · exact ⟨_, .all hf⟩
        · exact ⟨_, .tooMany rfl h hx hf⟩
    | @repeated l1 l2 y hl h hx => exact ⟨_, .repeated (l2 := l2 ++ [x]) (by rw [hl]; simp) h hx⟩
    | @tooMany l1 l2 y hl h hx hm => exact ⟨_, .tooMany (l2 := l2 ++ [x]) (by rw [hl]; simp) h hx hm⟩

section
variable {env : Env} {st : Start} {h : List Event} {s : Layer}

/-- Draining a stack of authentic messages on a negotiated layer that has not received anything yet. -/
theorem drainLoop_drained (law : env.cr.Lawful) {l : List (Nat × Bytes)} (hs : s.status = .success) (hw : WinOk s)
    (hD : Knows s []) (hl : ∀ x ∈ l, x.1 < 2 ^ 64 ∧ 26 + x.2.length < 2 ^ 64) (hlen : l.length < 2 ^ 64)
    {r : Res (List Message)} (hr : Drained l r) :
    ∃ s', s.drainLoop env (l.map fun x => userPlain env.cr x.1 x.2) [] = (s', r) ∧ s'.tmpStack = s.tmpStack ∧
      (s'.status = .fail ∧ r = .err .tooManyUnorderedMsgs ∨ s'.status = .success ∧ r ≠ .err .tooManyUnorderedMsgs) := by
  have pre : ∀ {l1 l2 : List (Nat × Bytes)} {x : Nat × Bytes}, l = l1 ++ x :: l2 → Orderly l1 →
      ∃ e O ms, s.drainLoop env (l.map fun x => userPlain env.cr x.1 x.2) [] =
        ({ s with nextNonceExpected := e, orphanNonces := O } : Layer).drainLoop env
          (userPlain env.cr x.1 x.2 :: l2.map fun x => userPlain env.cr x.1 x.2) ms ∧
      WinOk { s with nextNonceExpected := e, orphanNonces := O } ∧
      Knows { s with nextNonceExpected := e, orphanNonces := O } (l1.map Prod.fst) := by
    rintro l1 l2 x rfl hf
    obtain ⟨e', O, d1, d2, d3⟩ := drainLoop_flow law l1 [] (D := []) hs hw hD (fun y hy => hl y (by simp [hy]))
      (by simp [u64Size] at hlen ⊢; omega) hf.flow
    refine ⟨e', O, [] ++ l1.map msgOf, ?_, d2, by simpa using d3⟩
    rw [List.map_append, drainLoop_append, d1]
    rfl
  cases hr with
  | all hf =>
    obtain ⟨e', O, d1, d2, d3⟩ := drainLoop_flow law l [] (D := []) hs hw hD hl (by simpa [u64Size] using hlen) hf.flow
    exact ⟨_, d1, rfl, by simp [hs]⟩
  | @repeated l1 l2 x hl1 hf hx =>
    obtain ⟨e', O, ms, d1, d2, d3⟩ := pre hl1 hf
    have hx' := hl x (by simp [hl1])
    refine ⟨{ s with nextNonceExpected := e', orphanNonces := O }, ?_, rfl, by simp [hs]⟩
    rw [d1]
    unfold Layer.drainLoop
    obtain ⟨d, g1, g2, g3, -⟩ := parse_userPlain (env := env) (enc := true) (chk := true) x.2 law hx'.1 hx'.2 (by simp)
    rw [readInner_stacked _ g1 g3]
    have : Layer.readUser env { s with nextNonceExpected := e', orphanNonces := O } d x.1 =
        ({ s with nextNonceExpected := e', orphanNonces := O }, invalidMsg .invalidNonce) := by
      unfold Layer.readUser
      exact if_pos ((d3.seen _).mpr hx)
    rw [this]
  | @tooMany l1 l2 x hl1 hf hx hm =>
    obtain ⟨e', O, ms, d1, d2, d3⟩ := pre hl1 hf
    have hx' := hl x (by simp [hl1])
    have hnd : ¬ Deliverable (l1.map Prod.fst) x.1 := by
      intro hd
      apply hm
      apply orderly_of_flow
      · rw [List.map_append, List.nodup_append]
        refine ⟨hf.1, by simp, ?_⟩
        rintro a ha b hb rfl
        simp only [List.map_cons, List.map_nil, List.mem_singleton] at hb
        exact hx (hb ▸ ha)
      · rw [List.map_append]
        exact (flow_append _ _ _).mpr ⟨hf.flow, by simpa using hd⟩
    have hne : x.1 ≠ e' := fun he => hnd ⟨hx, .inl ((d3.isNext d2 hx).mp he)⟩
    have hcard : ¬ O.card < 10000 := fun hc => hnd ⟨hx, .inr (by rw [d3.pending d2]; exact hc)⟩
    refine ⟨{ s with nextNonceExpected := e', orphanNonces := O, status := .fail }, ?_, rfl, by simp⟩
    rw [d1]
    unfold Layer.drainLoop
    rw [readInner_stacked_eval (b := { s with nextNonceExpected := e', orphanNonces := O }) x.2 law hx'.1 hx'.2 hs (fun hsn => hx ((d3.seen _).mp hsn))]
    have : ({ s with nextNonceExpected := e', orphanNonces := O } : Layer).updateNonces env x.1 =
        ({ s with nextNonceExpected := e', orphanNonces := O, status := .fail }, .err .tooManyUnorderedMsgs) := by
      unfold Layer.updateNonces
      rw [if_neg hne, if_pos (by simpa [MAX_ORPHAN_NONCES] using hcard)]
    rw [this]

/-- **C32, exactly.** For a history that ends with the ACK that completes the negotiation and in which the early messages are
`l`, the answer of draining is the one of `Drained`: everything if no number comes twice and none is overtaken by more than
10000, otherwise an error, and then nothing is handed over.  In every case nothing can be drained any more; the session ends
exactly if there were too many. -/
theorem C32_outcome_partial (law : env.cr.Lawful) (hr : Run env st h s) {e : Event} {h1 : List Event}
    (he : h = h1 ++ [e]) (hack : ∃ m ∈ e.delivers, isAck m = true) (hs : s.status = .success)
    {k : SecretKey} (hk : s.secret = some k) (l : List (Nat × Bytes))
    (hl : ∀ x ∈ l, x.1 < 2 ^ 64 ∧ 26 + x.2.length < 2 ^ 64) (hlen : l.length < 2 ^ 64)
    (hearly : early h1 = l.map fun x => cipherOf env.cr k x.1 x.2) :
    (∀ r, (s.drainTmpStack env).2 = r ↔ Drained l r) ∧
      ((s.drainTmpStack env).1.drainTmpStack env).2 = .ok [] ∧
      ((s.drainTmpStack env).1.status = .fail ↔ (s.drainTmpStack env).2 = .err .tooManyUnorderedMsgs) := by
  obtain ⟨s1, hr1, hs1, t1, t2, t3, t4⟩ := ack_completes hr he hack hs
  have hw1 := Wf.of_run hr1
  obtain ⟨-, z0, z1, -⟩ := hw1.fresh _ _ hs1
  have hst := stack_eq hr1 _ _ hs1
  rw [← t2, hk, hearly] at hst
  have hst' : s1.tmpStack = l.map fun x => userPlain env.cr x.1 x.2 := by
    apply seal_map_inj law (k := k)
    rw [List.map_map]
    exact hst
  have hD : Knows { s with tmpStack := [] } [] := by
    refine ⟨by simp, fun m => ?_⟩
    simp [Layer.seen, t3, t4, z0, z1]
  have key : ∀ r, Drained l r → ∃ s', s.drainTmpStack env = (s', r) ∧ s'.tmpStack = [] ∧
      (s'.status = .fail ↔ r = .err .tooManyUnorderedMsgs) := by
    intro r hr'
    unfold Layer.drainTmpStack
    rw [t1, hst']
    obtain ⟨s', g1, g2, g3⟩ := drainLoop_drained law (s := { s with tmpStack := [] }) hs ((Wf.of_run hr).win.congr rfl rfl) hD
      hl hlen hr'
    exact ⟨s', g1, g2, by rcases g3 with ⟨g3, g4⟩ | ⟨g3, g4⟩ <;> simp [g3, g4]⟩
  obtain ⟨r0, hr0⟩ := drained_total l
  obtain ⟨s', g1, g2, g3⟩ := key r0 hr0
  rw [g1]
  refine ⟨fun r => ⟨?_, fun hr' => ?_⟩, ?_, g3⟩
  · rintro rfl; exact hr0
  · obtain ⟨s'', g4, -⟩ := key r hr'
    rw [g1] at g4
    exact congrArg Prod.snd g4
  · unfold Layer.drainTmpStack
    rw [g2, Layer.drainLoop]

end

/-- Toy party B receives two early messages, a replay of the first, another message, and the ACK: draining reports the replay,
and the other three messages are lost. -/
example (oc : Bool) : ∃ h1 e s, Run (Toy.env oc) Toy.stB (h1 ++ [e]) s ∧ (∃ m ∈ e.delivers, isAck m = true) ∧
    s.status = .success ∧ s.secret = some Toy.key ∧
    early h1 = ([(1, [5]), (0, [6]), (1, [5]), (2, [])] : List (Nat × Bytes)).map
      (fun x : Nat × Bytes => cipherOf Toy.cr Toy.key x.1 x.2) ∧
    Drained [(1, [5]), (0, [6]), (1, [5]), (2, [])] (.err (.recvInvalidMsg .invalidNonce)) := by
  obtain ⟨h, hr, hz⟩ := Toy.hist_b3 oc
  have r := ((((hr.call (.read (cipherOf Toy.cr Toy.key 1 [5]))).call
    (.read (cipherOf Toy.cr Toy.key 0 [6]))).call (.read (cipherOf Toy.cr Toy.key 1 [5]))).call
    (.read (cipherOf Toy.cr Toy.key 2 []))).call (.read (Toy.sign Toy.seedA Toy.ackA))
  refine ⟨_, _, _, r, ?_, ?_, ?_, ?_, ?_⟩
  · cases oc <;> decide +kernel
  · cases oc <;> decide +kernel
  · cases oc <;> decide +kernel
  · rw [early_append, early_append, early_append, early_append, hz]
    cases oc <;> decide +kernel
  · refine .repeated (l1 := [(1, [5]), (0, [6])]) (x := (1, [5])) rfl ⟨by decide, fun m => ?_⟩ (by decide)
    unfold overtakers
    exact (List.length_filter_le _ _).trans ((List.takeWhile_sublist _).length_le.trans (by decide))

end Pkstl
