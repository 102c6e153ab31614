import Verif.Lemmas.CConf
import Verif.Lemmas.Complete
import Verif.Props.Receiver
import Verif.Props.Window
import Verif.Spec.Catalogue
import Verif.Spec.ToyComplete
/- C74: which errors which function can return. -/
namespace Pkstl
open Spec

section
variable {env : Env} {st : Start} {s : Layer}

theorem headerErrors_listed {i : IncomingMsgErr} (h : i ∈ headerErrors) : readErrors (.recvInvalidMsg i) = true := by
  revert h; cases i <;> decide

/-- Errors of one user message. -/
theorem updateNonces_err {n : Nat} {s' : Layer} {e : Error} (h : s.updateNonces env n = (s', .err e)) :
    e = .tooManyUnorderedMsgs := by
  unfold Layer.updateNonces at h
  split at h
  · split at h
    · simp at h
    · rename_i n' _
      have : ∀ (o : Finset Nat) (n : Nat) e, (Layer.advance env.overflowChecks o n).2.2 ≠ .err e := by
        intro o n e
        fun_induction Layer.advance env.overflowChecks o n <;> simp_all
      rcases ha : Layer.advance env.overflowChecks s.orphanNonces n' with ⟨o, n, r⟩
      rw [ha] at h
      simp only [Prod.mk.injEq] at h
      have h2 := this s.orphanNonces n' e
      rw [ha] at h2
      exact absurd h.2 h2
  · split at h
    · simp only [Prod.mk.injEq, Res.err.injEq] at h; exact h.2.symm
    · simp at h

theorem read_listed (chk : Bool) {inc : Bytes} {e : Error} (h : (s.readInner env inc chk).2 = .err e) : readErrors e = true := by
  have hcase := readInner_case env s inc chk
  rw [h] at hcase
  generalize (s.readInner env inc chk).1 = s' at hcase
  generalize hrr : (Res.err e : Res (Option Message)) = r at hcase
  cases hcase with
  | parseErr hp =>
    simp only [Res.err.injEq] at hrr; subst hrr
    rcases readerRead_err hp with rfl | ⟨i, hi, rfl⟩
    · rfl
    · exact headerErrors_listed hi
  | connectKey => simp only [Res.err.injEq] at hrr; subst hrr; rfl
  | connectBadSig => simp only [invalidMsg, Res.err.injEq] at hrr; subst hrr; rfl
  | connectLate _ _ _ _ _ _ he => simp only [Res.err.injEq] at hrr; subst hrr; rw [he]; split <;> rfl
  | connectNoKp => split at hrr <;> first | exact absurd hrr.symm getMessage_ne_err | simp at hrr
  | connectNoAgreement => simp only [Res.err.injEq] at hrr; subst hrr; rfl
  | connectOk => exact absurd hrr.symm getMessage_ne_err
  | ackChallenge => simp only [invalidMsg, Res.err.injEq] at hrr; subst hrr; rfl
  | ackTwice => simp only [invalidMsg, Res.err.injEq] at hrr; subst hrr; rfl
  | ackBadSig => simp only [invalidMsg, Res.err.injEq] at hrr; subst hrr; rfl
  | ackLate _ _ _ _ _ _ _ he => simp only [Res.err.injEq] at hrr; subst hrr; rw [he]; split <;> rfl
  | ackOk => exact absurd hrr.symm getMessage_ne_err
  | userReplay => simp only [invalidMsg, Res.err.injEq] at hrr; subst hrr; rfl
  | userLate _ _ _ _ _ he => simp only [Res.err.injEq] at hrr; subst hrr; rw [he]; split <;> rfl
  | userBadHash => simp only [invalidMsg, Res.err.injEq] at hrr; subst hrr; rfl
  | userNonceErr _ _ _ _ _ _ hu =>
    simp only [Res.err.injEq] at hrr; subst hrr
    rw [updateNonces_err hu]; rfl
  | userOk => exact absurd hrr.symm getMessage_ne_err
  | _ => simp at hrr

theorem takeAck_listed (hw : Wf env st s) {e : Error} (h : (s.takeAck env).2 = .err e) : errorsOf .takeAck e = true := by
  unfold Layer.takeAck at h
  cases ha : s.ackMsgRecvTooEarly with
  | none => rw [ha] at h; simp at h
  | some b =>
    rw [ha] at h
    obtain ⟨h4, d, hp, hh⟩ := hw.ackP b ha
    have hrd : readerRead env s.secret b true = .ok d := (readerRead_clear h4).trans hp
    dsimp only at h
    unfold Layer.read Layer.readInner at h
    dsimp only at h
    rw [hrd] at h
    dsimp only at h
    rw [hh] at h
    dsimp only at h
    unfold Layer.readAck at h
    dsimp only at h
    rw [hw.epub, if_neg (by simp)] at h
    cases hk : s.peerSigPubkey with
    | none => rw [hk] at h; simp at h
    | some k =>
      rw [hk] at h
      dsimp only at h
      rw [verifySig_eq] at h
      by_cases hl : d.userMsgEnd ≤ d.data.length
      · rw [if_pos hl] at h
        rcases hv : env.cr.edVerify k (d.data.take d.userMsgEnd) (d.data.drop d.userMsgEnd) with _ | _ <;> rw [hv] at h <;>
          dsimp only at h
        · simp only [invalidMsg, Res.err.injEq] at h; subst h; rfl
        · rcases hs : s.status with _ | ⟨loc, rem⟩ | _ <;> rw [hs] at h
          · simp only [Status.applyAction, Res.err.injEq] at h; subst h; rfl
          · cases loc <;> cases rem <;> simp [Status.applyAction, invalidMsg] at h <;>
              first | exact absurd h getMessage_ne_err | (subst h; rfl)
          · simp only [Status.applyAction, invalidMsg, Res.err.injEq] at h; subst h; rfl
      · rw [if_neg hl] at h; simp at h

/-- Negotiated as far as user messages are concerned. -/
def late (s : Layer) : Prop := s.status = .ongoing .connectMsgSent .ackMsgSent ∨ s.status = .success ∨ s.status = .fail

theorem readUser_listed {d : DecryptedIncomingData} {n : Nat} (hs : late s) :
    (∀ e, (s.readUser env d n).2 = .err e → errorsOf .drain e = true) ∧ late (s.readUser env d n).1 := by
  rcases hq : s.readUser env d n with ⟨s', r⟩
  dsimp only
  unfold Layer.readUser at hq
  split at hq
  · simp only [Prod.mk.injEq] at hq
    obtain ⟨rfl, rfl⟩ := hq
    exact ⟨by rintro e h; simp only [invalidMsg, Res.err.injEq] at h; subst h; rfl, hs⟩
  rcases hs with hs | hs | hs <;> rw [hs] at hq
  · simp only [Status.applyAction, and_self, if_true, Prod.mk.injEq] at hq
    obtain ⟨rfl, rfl⟩ := hq
    exact ⟨by simp, .inl rfl⟩
  · simp only [Status.applyAction, sliceTo, sliceFrom] at hq
    by_cases hl : d.userMsgEnd ≤ d.data.length
    swap
    · simp only [if_neg hl, Prod.mk.injEq] at hq
      obtain ⟨rfl, rfl⟩ := hq
      exact ⟨by simp, .inr (.inl rfl)⟩
    simp only [if_pos hl] at hq
    split at hq
    · simp only [Prod.mk.injEq] at hq
      obtain ⟨rfl, rfl⟩ := hq
      exact ⟨by rintro e h; simp only [invalidMsg, Res.err.injEq] at h; subst h; rfl, .inr (.inl rfl)⟩
    obtain ⟨O', n', t, h1, h2, -, -, h3⟩ := updateNonces_frame env { s with status := .success } n
    rcases hu : Layer.updateNonces env { s with status := .success } n with ⟨s2, u | e | p⟩ <;> rw [hu] at hq h1 <;>
      simp only [Prod.mk.injEq] at hq <;> obtain ⟨rfl, rfl⟩ := hq
    all_goals
      simp only [hu] at h3
      dsimp only at h1
      refine ⟨?_, ?_⟩
    · intro e h; exact absurd h getMessage_ne_err
    · rcases h2 with rfl | rfl <;> rw [h1]
      · exact .inr (.inl rfl)
      · exact .inr (.inr rfl)
    · intro e' h
      simp only [Res.err.injEq] at h
      subst h
      rw [(h3 e rfl).1]
      rfl
    · rcases h2 with rfl | rfl <;> rw [h1]
      · exact .inr (.inl rfl)
      · exact .inr (.inr rfl)
    · simp
    · rcases h2 with rfl | rfl <;> rw [h1]
      · exact .inr (.inl rfl)
      · exact .inr (.inr rfl)
  · simp only [Status.applyAction, Prod.mk.injEq] at hq
    obtain ⟨rfl, rfl⟩ := hq
    exact ⟨by rintro e h; simp only [Res.err.injEq] at h; subst h; rfl, .inr (.inr rfl)⟩

theorem drainLoop_listed {l : List Bytes} {ms : List Message} {e : Error} (hs : l ≠ [] → late s)
    (hl : ∀ b ∈ l, ∃ n d, parseClear env true b true = .ok d ∧ d.msgTypeHeaders = .userMsg n)
    (h : (s.drainLoop env l ms).2 = .err e) : errorsOf .drain e = true := by
  induction l generalizing s ms with
  | nil => simp [Layer.drainLoop] at h
  | cons b l ih =>
    obtain ⟨n, d, hp, hh⟩ := hl b (by simp)
    obtain ⟨h1, h2⟩ := readUser_listed (env := env) (d := d) (n := n) (hs (by simp))
    unfold Layer.drainLoop at h
    rw [readInner_stacked s hp hh] at h
    rcases hq : s.readUser env d n with ⟨s', (_ | m) | e' | p⟩ <;> rw [hq] at h h1 h2
    · exact ih (fun _ => h2) (fun b hb => hl b (by simp [hb])) h
    · exact ih (fun _ => h2) (fun b hb => hl b (by simp [hb])) h
    · simp only [Res.err.injEq] at h; subst h; exact h1 _ rfl
    · simp at h

theorem drain_listed (hw : Wf env st s) {e : Error} (h : (s.drainTmpStack env).2 = .err e) : errorsOf .drain e = true :=
  drainLoop_listed (s := { s with tmpStack := [] }) (fun hne => hw.stack hne) hw.stackP h

theorem createConnect_listed {pk : Bytes} {d : Option Bytes} {e : Error} (h : (s.createConnect env pk d).2 = .err e) :
    errorsOf .connect e = true := by
  rcases createConnect_cases env s pk d with ⟨rem, -, h1⟩ | ⟨-, h1⟩ <;> rw [h1] at h
  · simp at h
  · simp only [Res.err.injEq] at h; subst h; split <;> rfl

theorem createAck_listed {d : Option Bytes} {e : Error} (h : (s.createAck env d).2 = .err e) :
    errorsOf .ack e = true := by
  rcases createAck_cases env s d with ⟨loc, -, h1⟩ | ⟨-, h1⟩ <;> rw [h1] at h
  · dsimp only at h; split at h <;> simp at h
  · simp only [Res.err.injEq] at h; subst h; split <;> rfl

theorem writeMessage_listed {d : Bytes} {w : BufW} {e : Error} (h : (s.writeMessage env d w).2.2 = .err e) :
    writeErrors e = true := by
  unfold Layer.writeMessage at h
  rcases hs : s.status with _ | ⟨loc, rem⟩ | _ <;> rw [hs] at h
  · simp [Status.applyAction] at h; subst h; rfl
  · simp [Status.applyAction] at h; subst h; rfl
  simp only [Status.applyAction] at h
  rcases hq : ({ s with status := .success } : Layer).encapsulateEncryptWrite env d w with ⟨w', u | e' | p⟩ <;> rw [hq] at h
  · split at h <;> rename_i hq' <;> simp only [Prod.mk.injEq, reduceCtorEq, and_false] at hq'
    split at h <;> simp at h
  · dsimp only at h
    simp only [Res.err.injEq] at h
    subst h
    unfold Layer.encapsulateEncryptWrite Layer.encryptAndWrite encrypt at hq
    rw [toBytes_user] at hq
    dsimp only at hq
    split at hq
    · simp at hq
    · split at hq
      · simp only [Prod.mk.injEq, Res.err.injEq] at hq; rw [← hq.2]; rfl
      · split at hq
        · simp only [Prod.mk.injEq, Res.err.injEq] at hq; rw [← hq.2]; rfl
        · simp at hq
  · simp at h

theorem tryClone_listed {e : Error} (h : s.tryClone.2 = .err e) : errorsOf .clone e = true := by
  unfold Layer.tryClone at h
  split at h <;> simp_all
  subst h; rfl

theorem changeConfig_listed {c : Config} {e : Error} (h : (s.changeConfig c).2 = .err e) : errorsOf .config e = true := by
  unfold Layer.changeConfig at h
  split at h <;> simp_all
  subst h; rfl

theorem errorIn_iff {α : Type} {r : Res α} {e : Error} : errorIn r = some e ↔ r = .err e := by
  cases r <;> simp [errorIn]

theorem unitRes_err {α : Type} {r : Res α} {e : Error} : unitRes r = .err e ↔ r = .err e := by
  cases r <;> simp [unitRes]

theorem step_listed (hw : Wf env st s) (op : Op) {e : Error} (h : (step env s op).2.error = some e) :
    errorsOf (step env s op).2.fn e = true := by
  cases op <;> simp only [step, Event.error, errorIn_iff, unitRes_err] at h
  · exact read_listed true h
  · exact takeAck_listed hw h
  · exact drain_listed hw h
  · exact createConnect_listed h
  · exact createAck_listed h
  · exact writeMessage_listed h
  · exact tryClone_listed h
  · exact changeConfig_listed h

theorem run_listed {h : List Event} (hr : Run env st h s) {ev : Event} (hev : ev ∈ h) {e : Error}
    (he : ev.error = some e) : errorsOf ev.fn e = true := by
  induction hr with
  | init => simp at hev
  | cloned hr hc ih =>
    simp only [List.mem_append, List.mem_singleton] at hev
    rcases hev with hev | rfl
    · exact ih hev
    · simp [Event.error, errorIn] at he
  | call hr op ih =>
    simp only [List.mem_append, List.mem_singleton] at hev
    rcases hev with hev | rfl
    · exact ih hev
    · exact step_listed (Wf.of_run hr) op he

theorem updateNonces_card (n : Nat) : (s.updateNonces env n).1.orphanNonces.card ≤ s.orphanNonces.card + 1 := by
  have adv : ∀ (o : Finset Nat) (n : Nat), (Layer.advance env.overflowChecks o n).1.card ≤ o.card := by
    intro o n
    fun_induction Layer.advance env.overflowChecks o n with
    | case1 => exact Finset.card_le_card (Finset.erase_subset _ _)
    | case2 o n hm n' hn' ih => exact ih.trans (Finset.card_le_card (Finset.erase_subset _ _))
    | case3 => simp
  unfold Layer.updateNonces
  split
  · split
    · simp
    · exact (adv _ _).trans (by omega)
  · split
    · simp
    · exact Finset.card_insert_le _ _

theorem readUser_overflow {d : DecryptedIncomingData} {n : Nat}
    (h : (s.readUser env d n).2 = .err .tooManyUnorderedMsgs) :
    s.status = .success ∧ (s.readUser env d n).1.status = .fail ∧
      (s.readUser env d n).1.orphanNonces = s.orphanNonces ∧ 10000 ≤ s.orphanNonces.card := by
  unfold Layer.readUser at h ⊢
  by_cases hn : n < s.nextNonceExpected ∨ n ∈ s.orphanNonces
  · rw [if_pos hn] at h; simp [invalidMsg] at h
  rw [if_neg hn] at h ⊢
  rcases hs : s.status with _ | ⟨loc, rem⟩ | _ <;> rw [hs] at h
  · simp [Status.applyAction] at h
  · cases loc <;> cases rem <;> simp [Status.applyAction, invalidMsg] at h
  have hself : ({ s with status := .success } : Layer) = s := by rw [← hs]
  simp only [Status.applyAction, hself, sliceTo, sliceFrom] at h ⊢
  by_cases hl : d.userMsgEnd ≤ d.data.length
  swap
  · simp only [if_neg hl] at h; simp at h
  simp only [if_pos hl] at h ⊢
  by_cases hv : d.data.drop d.userMsgEnd ≠ env.cr.sha256 (d.data.take d.userMsgEnd)
  · rw [if_pos hv] at h; simp [invalidMsg] at h
  rw [if_neg hv] at h ⊢
  obtain ⟨h1, h2⟩ : s.updateNonces env n = ({ s with status := .fail }, .err .tooManyUnorderedMsgs) ∧
      10000 ≤ s.orphanNonces.card := by
    rcases hu : s.updateNonces env n with ⟨s', u | e | p⟩ <;> rw [hu] at h
    · exact absurd h getMessage_ne_err
    · have he := updateNonces_err hu
      subst he
      unfold Layer.updateNonces at hu
      split at hu
      · split at hu
        · simp at hu
        · rename_i n' _
          have : ∀ (o : Finset Nat) (n : Nat) e, (Layer.advance env.overflowChecks o n).2.2 ≠ .err e := by
            intro o n e
            fun_induction Layer.advance env.overflowChecks o n <;> simp_all
          exact absurd (congrArg Prod.snd hu) (this _ _ _)
      · split at hu
        · rename_i hc
          exact ⟨hu ▸ rfl, hc⟩
        · simp at hu
    · simp at h
  rw [h1]
  exact ⟨trivial, rfl, rfl, h2⟩

theorem drainLoop_overflow {l : List Bytes} {ms : List Message}
    (hl : ∀ b ∈ l, ∃ n d, parseClear env true b true = .ok d ∧ d.msgTypeHeaders = .userMsg n)
    (h : (s.drainLoop env l ms).2 = .err .tooManyUnorderedMsgs) :
    s.status = .success ∧ (s.drainLoop env l ms).1.status = .fail ∧
      10000 ≤ (s.drainLoop env l ms).1.orphanNonces.card ∧ 10000 < s.orphanNonces.card + l.length := by
  induction l generalizing s ms with
  | nil => simp [Layer.drainLoop] at h
  | cons b l ih =>
    obtain ⟨n, d, hp, hh⟩ := hl b (by simp)
    have hl' : ∀ b ∈ l, ∃ n d, parseClear env true b true = .ok d ∧ d.msgTypeHeaders = .userMsg n :=
      fun b hb => hl b (by simp [hb])
    unfold Layer.drainLoop at h ⊢
    rw [readInner_stacked s hp hh] at h ⊢
    simp only [List.length_cons]
    have hov := readUser_overflow (env := env) (s := s) (d := d) (n := n)
    rcases readUser_cases env s d n with ⟨t, e, h1, -⟩ | ⟨p, h1⟩ | ⟨h0, h1⟩ | ⟨h0, h2, h1⟩
    · rw [h1] at h hov ⊢
      simp only [Res.err.injEq] at h
      subst h
      obtain ⟨g1, g2, -, g4⟩ := hov rfl
      exact ⟨g1, g2, g4, by omega⟩
    · rw [h1] at h; simp at h
    · rw [h1] at h
      have := (ih hl' h).1
      dsimp only at this
      rw [h0] at this
      simp at this
    · refine ⟨h0, ?_⟩
      have hc := updateNonces_card (env := env) (s := s) n
      rcases hq : s.readUser env d n with ⟨s', (_ | m) | e | p⟩ <;> rw [hq] at h h1 hov
      · obtain ⟨-, g2, g3, g4⟩ := ih hl' h
        have : s' = (s.updateNonces env n).1 := congrArg Prod.fst h1
        rw [← this] at hc
        exact ⟨g2, g3, by omega⟩
      · obtain ⟨-, g2, g3, g4⟩ := ih hl' h
        have : s' = (s.updateNonces env n).1 := congrArg Prod.fst h1
        rw [← this] at hc
        exact ⟨g2, g3, by omega⟩
      · simp only [Res.err.injEq] at h
        subst h
        obtain ⟨-, g2, g3, g4⟩ := hov rfl
        dsimp only at g2 g3 ⊢
        exact ⟨g2, by rw [g3]; exact g4, by omega⟩
      · simp at h

/-- **C19.** Draining the early messages reports TooManyUnorderedMsgs only if the layer was negotiated and the early messages
together with the numbers held back exceed the bound; the layer has then failed, with the bookkeeping full. -/
theorem C19_drain {h : List Event} (hr : Run env st h s) (he : (s.drainTmpStack env).2 = .err .tooManyUnorderedMsgs) :
    s.status = .success ∧ (s.drainTmpStack env).1.status = .fail ∧
      (s.drainTmpStack env).1.orphanNonces.card = 10000 ∧ 10000 < s.orphanNonces.card + s.tmpStack.length := by
  have hw := Wf.of_run hr
  obtain ⟨h1, h2, h3, h4⟩ := drainLoop_overflow (s := { s with tmpStack := [] }) hw.stackP he
  have hw' := (Wf.of_run (hr.call .drain)).win.card
  exact ⟨h1, h2, le_antisymm hw' h3, h4⟩

/-- **C19.** No other function reports it. -/
theorem C19_only {h : List Event} (hr : Run env st h s) {ev : Event} (hev : ev ∈ h) (he : ev.error = some .tooManyUnorderedMsgs) :
    ev.fn = .read ∨ ev.fn = .drain := by
  have := run_listed hr hev he
  revert this
  cases ev.fn <;> simp [errorsOf, writeErrors]

end

section
variable {env : Env} {st : Start} {sl : SecureLayer} {M : Type} {f : Features}

theorem takeAck_read {e : Error} (h : errorsOf .takeAck e = true) : readErrors e = true := by
  cases e <;> first | rfl | (simp [errorsOf] at h; done) | skip
  rename_i i
  cases i <;> first | rfl | simp [errorsOf] at h

theorem drain_read {e : Error} (h : errorsOf .drain e = true) : readErrors e = true := by
  cases e <;> first | rfl | (simp [errorsOf] at h; done) | skip
  rename_i i
  cases i <;> first | rfl | simp [errorsOf] at h

theorem opt_zip {d : Option Bytes} {e : Error} (h : SecureLayer.uncompressOpt env.cr d = .err e) :
    e = .zipError := by
  unfold SecureLayer.uncompressOpt SecureLayer.uncompress at h
  split at h
  · simp at h
  · split at h <;> rename_i hq <;> split at hq <;> simp at h hq
    rw [← h, ← hq]

theorem userMsgs_zip {l : List Message} {acc : List BinMessage} {e : Error}
    (h : SecureLayer.uncompressUserMsgs env.cr l acc = .err e) : e = .zipError := by
  induction l generalizing acc with
  | nil => simp [SecureLayer.uncompressUserMsgs] at h
  | cons m l ih =>
    unfold SecureLayer.uncompressUserMsgs at h
    cases m <;> dsimp only at h
    · exact ih h
    · exact ih h
    · split at h
      · exact ih h
      · rename_i hq
        simp only [Res.err.injEq] at h
        subst h
        exact opt_zip hq
      · simp at h

theorem readBin_listed (hw : Wf env st sl.minimal) {inc : Bytes} {e : Error} (h : (sl.readBin env inc).2 = .err e) :
    cerrorsOf f .readBin e = true := by
  have hw' : Wf env st (sl.minimal.read env inc).1 := hw.step (.read inc)
  simp only [cerrorsOf, Bool.or_eq_true, decide_eq_true_eq]
  unfold SecureLayer.readBin at h
  rcases hq : sl.minimal.read env inc with ⟨m, (_ | x) | e' | p⟩ <;> rw [hq] at h hw' <;> try dsimp only at h
  · simp at h
  · cases x <;> try dsimp only at h
    · rename_i cd
      rcases hu : SecureLayer.uncompressOpt env.cr cd with cd' | e' | p <;> rw [hu] at h <;> try dsimp only at h
      · rcases ht : m.takeAck env with ⟨m', (_ | y) | e' | p⟩ <;> rw [ht] at h <;> try dsimp only at h
        · simp at h
        · cases y <;> dsimp only at h <;> try (simp at h; done)
          rename_i ad
          rcases hu2 : SecureLayer.uncompressOpt env.cr ad with ad' | e' | p <;> rw [hu2] at h <;> try dsimp only at h
          · simp at h
          · simp only [Res.err.injEq] at h; subst h; exact .inr (opt_zip hu2)
          · simp at h
        · simp only [Res.err.injEq] at h; subst h
          exact .inl (takeAck_read (takeAck_listed hw' (congrArg Prod.snd ht)))
        · simp at h
      · simp only [Res.err.injEq] at h; subst h; exact .inr (opt_zip hu)
      · simp at h
    · rename_i cd
      rcases hu : SecureLayer.uncompressOpt env.cr cd with cd' | e' | p <;> rw [hu] at h <;> try dsimp only at h
      · rcases ht : m.drainTmpStack env with ⟨m', ms | e' | p⟩ <;> rw [ht] at h <;> try dsimp only at h
        · exact .inr (userMsgs_zip h)
        · simp only [Res.err.injEq] at h; subst h
          exact .inl (drain_read (drain_listed hw' (congrArg Prod.snd ht)))
        · simp at h
      · simp only [Res.err.injEq] at h; subst h; exact .inr (opt_zip hu)
      · simp at h
    · rename_i cd
      rcases hu : SecureLayer.uncompressOpt env.cr cd with cd' | e' | p <;> rw [hu] at h <;> dsimp only at h
      · simp at h
      · simp only [Res.err.injEq] at h; subst h; exact .inr (opt_zip hu)
      · simp at h
  · simp only [Res.err.injEq] at h; subst h
    exact .inl (read_listed true (congrArg Prod.snd hq))
  · simp at h

theorem codecRes_err {α : Type} {x : SerdeError} {o : Option α} {e : Error} (h : codecRes x o = .err e) :
    e = .serdeError x := by
  cases o <;> simp [codecRes] at h
  exact h.symm

theorem tryFrom_ok {b : Bytes} {fmt : MessageFormat} (h : MessageFormat.tryFrom f b = .ok fmt) :
    fmt.enabled f = true := by
  unfold MessageFormat.tryFrom at h
  split at h
  · rename_i hq; cases h; exact hq.1
  split at h
  · rename_i hq; cases h; exact hq.1
  split at h
  · cases h; rfl
  split at h
  · rename_i hq; cases h; exact hq.1
  split at h
  · cases h; rfl
  · simp [invalidMsg] at h

theorem tryFrom_err {b : Bytes} {e : Error} (h : MessageFormat.tryFrom f b = .err e) :
    e = .recvInvalidMsg .unknownMessageFormat := by
  unfold MessageFormat.tryFrom at h
  iterate 5 (split at h; · simp at h)
  simp only [invalidMsg, Res.err.injEq] at h
  exact h.symm

theorem deserialize_listed {c : Codec M} {b : Bytes} {e : Error} (h : deserialize f c b = .err e) :
    contentErrors f e = true := by
  unfold deserialize at h
  split at h
  · simp only [invalidMsg, Res.err.injEq] at h; subst h; rfl
  rcases Res.err_of_bind h with h1 | ⟨fmt, h1, h2⟩
  · rw [tryFrom_err h1]; rfl
  · have := tryFrom_ok h1
    cases fmt <;> simp only [deserializeInner] at h2
    all_goals first
      | (rw [codecRes_err h2]; exact this)
      | (simp only [Res.err.injEq] at h2; subst h2; rfl)
      | simp at h2

theorem deserializeOpt_listed {c : Codec M} {d : Option Bytes} {e : Error} (h : deserializeOpt f c d = .err e) :
    contentErrors f e = true := by
  cases d with
  | none => simp [deserializeOpt] at h
  | some b =>
    rcases Res.err_of_bind h with h1 | ⟨m, -, h2⟩
    · exact deserialize_listed h1
    · simp at h2

theorem deserializeMsg_listed {c : Codec M} {m : BinMessage} {e : Error} (h : deserializeMsg f c m = .err e) :
    contentErrors f e = true := by
  cases m <;> rcases Res.err_of_bind h with h1 | ⟨m, -, h2⟩ <;>
    first | exact deserializeOpt_listed h1 | simp at h2

theorem deserializeMsgs_listed {c : Codec M} {l : List BinMessage} {e : Error} (h : deserializeMsgs f c l = .err e) :
    contentErrors f e = true := by
  induction l with
  | nil => simp [deserializeMsgs] at h
  | cons m l ih =>
    rcases Res.err_of_bind h with h1 | ⟨x, -, h2⟩
    · exact deserializeMsg_listed h1
    · rcases Res.err_of_bind h2 with h1 | ⟨x, -, h2⟩
      · exact ih h1
      · simp at h2

theorem readSer_listed (hw : Wf env st sl.minimal) {c : Codec M} {inc : Bytes} {e : Error}
    (h : (sl.readSer env f c inc).2 = .err e) : cerrorsOf f .readSer e = true := by
  have := readBin_listed (f := f) (inc := inc) (e := e) hw
  unfold SecureLayer.readSer at h
  simp only [cerrorsOf, Bool.or_eq_true] at this ⊢
  rcases hq : sl.readBin env inc with ⟨sl', ms | e' | p⟩ <;> rw [hq] at h this
  · exact .inr (deserializeMsgs_listed h)
  · simp only [Res.err.injEq] at h; subst h; exact .inl (this rfl)
  · simp at h

theorem writeSigned_err {seed b : Bytes} {w : BufW} {e : Error} (h : (SecureLayer.writeSigned env.cr seed b w).2 = .err e) :
    e = .bufferFlushError := by
  unfold SecureLayer.writeSigned SecureLayer.signAndWriteSig at h
  split at h
  · simp only [Res.err.injEq] at h; exact h.symm
  · split at h
    · simp at h
    · simp only [Res.err.injEq] at h; exact h.symm

theorem writeConnectRaw_listed {d : Option Bytes} {w : BufW} {e : Error} (h : (sl.writeConnectRaw env d w).2.2 = .err e) :
    connectErrors e = true := by
  rcases writeConnectRaw_cases env sl d w with ⟨-, h1⟩ | ⟨_, -, -, h1⟩ | ⟨_, _, -, -, h1⟩ <;> rw [h1] at h
  · simp only [Res.err.injEq] at h; subst h; rfl
  · simp only [Res.err.injEq] at h; subst h; split <;> rfl
  · rw [writeSigned_err h]; rfl

theorem writeAckRaw_listed (hw : Wf env st sl.minimal) {d : Option Bytes} {w : BufW} {e : Error}
    (h : (sl.writeAckRaw env d w).2.2 = .err e) : ackErrors e = true := by
  rcases writeAckRaw_cases hw d w with ⟨-, h1⟩ | ⟨_, -, -, h1⟩ | ⟨_, _, _, -, -, -, h1⟩ <;> rw [h1] at h
  · simp only [Res.err.injEq] at h; subst h; rfl
  · simp only [Res.err.injEq] at h; subst h; split <;> rfl
  · rw [writeSigned_err h]; rfl

theorem serialize_listed {c : Codec M} {m : M} {fmt : MessageFormat} (hf : fmt.enabled f = true) {e : Error}
    (h : serialize c m fmt = .err e) : codecErrors f e = true := by
  rcases Res.err_of_bind h with h1 | ⟨x, -, h2⟩
  · cases fmt <;> simp only [serializeInner] at h1
    all_goals first
      | (rw [codecRes_err h1]; exact hf)
      | (simp only [Res.err.injEq] at h1; subst h1; rfl)
      | simp at h1
  · simp at h2

theorem serializeOpt_listed {c : Codec M} {d : Option M} (hf : sl.minimal.config.messageFormat.enabled f = true) {e : Error}
    (h : SecureLayer.serializeOpt env.cr c sl d = .err e) : codecErrors f e = true := by
  cases d with
  | none => simp [SecureLayer.serializeOpt] at h
  | some m =>
    rcases Res.err_of_bind h with h1 | ⟨x, -, h2⟩
    · exact serialize_listed hf h1
    · simp at h2

theorem cstep_has (hw : Wf env st sl.minimal) (hf : Config.Has f sl.minimal.config) (op : COp M)
    (h : (cstep env f sl op).2.Has f) : Config.Has f (cstep env f sl op).1.minimal.config := by
  by_cases h1 : ∃ c, op = .config c
  · obtain ⟨c, rfl⟩ := h1
    simp only [cstep, SecureLayer.changeConfig, Layer.changeConfig]
    split
    · exact h
    · exact hf
  by_cases h2 : op = .clone
  · subst h2
    simp only [cstep, SecureLayer.tryClone, Layer.tryClone]
    split
    · rename_i hq; split at hq <;> simp at hq; rw [← hq.1]; exact hf
    · rename_i hq; split at hq <;> simp at hq; rw [← hq.1]; exact hf
    · rename_i hq; split at hq <;> simp at hq
  · rw [(cstep_sameConf (f := f) hw op (fun c hc => h1 ⟨c, hc⟩) h2).1]
    exact hf

theorem cstep_listed (hw : Wf env st sl.minimal) (hf : Config.Has f sl.minimal.config) (op : COp M) {e : Error}
    (h : (cstep env f sl op).2.error = some e) : cerrorsOf f (cstep env f sl op).2.fn e = true := by
  cases op <;> simp only [cstep, CEvent.error, errorIn_iff, unitRes_err] at h <;>
    simp only [cstep, CEvent.fn]
  · exact readBin_listed hw h
  · exact readSer_listed hw h
  · exact writeConnectRaw_listed h
  · simp only [cerrorsOf, Bool.or_eq_true]
    unfold SecureLayer.writeConnectSer at h
    split at h
    · exact .inl (writeConnectRaw_listed h)
    · rename_i hq; simp only [Res.err.injEq] at h; subst h; exact .inr (serializeOpt_listed hf hq)
    · simp at h
  · exact writeAckRaw_listed hw h
  · simp only [cerrorsOf, Bool.or_eq_true]
    unfold SecureLayer.writeAckSer at h
    split at h
    · exact .inl (writeAckRaw_listed hw h)
    · rename_i hq; simp only [Res.err.injEq] at h; subst h; exact .inr (serializeOpt_listed hf hq)
    · simp at h
  · exact writeMessage_listed h
  · simp only [cerrorsOf, Bool.or_eq_true]
    unfold SecureLayer.writeSer at h
    split at h
    · rename_i hq
      refine .inr ?_
      rw [Bool.and_eq_true]
      refine ⟨?_, writeMessage_listed h⟩
      unfold Config.Has at hf
      unfold serialize at hq
      revert hf hq
      cases sl.minimal.config.messageFormat <;> simp +contextual [serializeInner, MessageFormat.enabled]
    · rename_i hq; simp only [Res.err.injEq] at h; subst h; exact .inl (serialize_listed hf hq)
    · simp at h
  · unfold SecureLayer.tryClone at h
    split at h <;> try (simp at h; done)
    rename_i hq
    simp only [Res.err.injEq] at h; rw [h] at hq
    have := tryClone_listed (congrArg Prod.snd hq)
    revert this
    simp only [cerrorsOf]
    cases e <;> simp [errorsOf]
  · have := changeConfig_listed h
    revert this
    cases e <;> simp [errorsOf, cerrorsOf]

theorem crun_listed {st : CStart} {h : List (CEvent M)} (hr : CRun env f st h sl) (hst : Config.Has f st.config)
    (hh : ∀ ev ∈ h, ev.Has f) :
    Config.Has f sl.minimal.config ∧ ∀ ev ∈ h, ∀ e, ev.error = some e → cerrorsOf f ev.fn e = true := by
  induction hr with
  | init hc =>
    simp [SecureLayer.create, Layer.create, EphemeralKeyPair.generate] at hc
    refine ⟨?_, by simp⟩
    cases hs : st.seed <;> rw [hs] at hc <;> simp at hc <;> rw [← hc] <;> exact hst
  | @cloned h sl c hr hc ih =>
    obtain ⟨h1, h2⟩ := ih fun ev hev => hh ev (by simp [hev])
    refine ⟨?_, ?_⟩
    · unfold SecureLayer.tryClone at hc
      split at hc <;> simp at hc
      rename_i hq
      rw [← hc, (tryClone_ok (congrArg Prod.snd hq)).2]
      exact h1
    · intro ev hev e he
      simp only [List.mem_append, List.mem_singleton] at hev
      rcases hev with hev | rfl
      · exact h2 ev hev e he
      · simp [CEvent.error, errorIn] at he
  | call hr op ih =>
    obtain ⟨h1, h2⟩ := ih fun ev hev => hh ev (by simp [hev])
    refine ⟨cstep_has hr.wf h1 op (hh _ (by simp)), ?_⟩
    intro ev hev e he
    simp only [List.mem_append, List.mem_singleton] at hev
    rcases hev with hev | rfl
    · exact h2 ev hev e he
    · exact cstep_listed hr.wf h1 op he

end
namespace Toy

/-- Make calls one after another. -/
def play (env : Env) (s : Layer) : List Op → List Event → List Event × Layer
  | [], h => (h, s)
  | op :: ops, h => play env (step env s op).1 ops (h ++ [(step env s op).2])

theorem play_run {env : Env} {st : Start} {s : Layer} {h : List Event} (hr : Run env st h s) (ops : List Op) :
    Run env st (play env s ops h).1 (play env s ops h).2 := by
  induction ops generalizing s h with
  | nil => exact hr
  | cons op ops ih => exact ih (hr.call op)

/-- A user message for toy party B, and one with the wrong hash. -/
def user (n : Nat) : Bytes := cipherOf cr key n [0, 5]
def badHash (n : Nat) : Bytes := aeadSeal cr key (userFrame n [0, 5] ++ List.replicate 32 0)
/-- Byte strings that fail a layer. -/
def noise : Bytes := List.replicate 20 1 ++ List.replicate 20 2
/-- A CONNECT without a usable key. -/
def conZero : Bytes := sign seedA (connectFrame (List.replicate 32 0) pkA [])

/-- Toy party B's calls up to its CONNECT, its ACK, and the end of the negotiation. -/
def open2 : List Op := [.read (sign seedA conA), .connect pkB none]
def open3 : List Op := open2 ++ [.ack none]
def open4 : List Op := open3 ++ [.read (sign seedA ackA)]

/-- Toy party B's expectation, and its calls, which end with the error. -/
def story : Fn → Error → Option Bytes × List Op
  | .read, .connectionHadFail => (none, [.read noise, .read (sign seedA conA)])
  | .read, .failToComputeAgreement => (none, [.read conZero])
  | .read, .failToDecryptData => (none, open4 ++ [.read noise])
  | .read, .unexpectedRemoteSigPubKey => (some pkB, [.read (sign seedA conA)])
  | .read, .recvInvalidMsg .invalidChallenge => (none, open2 ++ [.read (sign seedA (ackFrame (cr.sha256 (xpub [1])) []))])
  | .read, .recvInvalidMsg .invalidHashOrSig => (none, [.read (sign seedB conA)])
  | .read, .recvInvalidMsg .invalidMagicValue => (none, open2 ++ [.read (aeadSeal cr key noise)])
  | .read, .recvInvalidMsg .invalidNonce => (none, open4 ++ [.read (user 0), .read (user 0)])
  | .read, .recvInvalidMsg .unexpectedAckMsg => (none, open4 ++ [.read (sign seedA ackA)])
  | .read, .recvInvalidMsg .unexpectedConnectMsg => (none, open4 ++ [.read (sign seedA conA)])
  | .read, .recvInvalidMsg .unexpectedMessage => (none, [.read noise])
  | .read, .recvInvalidMsg .unexpectedEncryptionState => (none, open2 ++ [.read (aeadSeal cr key (sign seedA ackA))])
  | .read, .recvInvalidMsg .unknownMessageType => (none, [.read (conA.set 17 7)])
  | .read, .recvInvalidMsg .unsupportedSigAlgo => (none, [.read (conA.set 50 7)])
  | .read, .recvInvalidMsg .unsupportedVersion => (none, [.read (conA.set 7 7)])
  | .takeAck, .connectionHadFail =>
    (none, [.connect pkB none, .read (sign seedA ackA), .read (sign seedA conA), .read noise, .takeAck])
  | .takeAck, .recvInvalidMsg .invalidHashOrSig =>
    (none, [.connect pkB none, .read (sign seedB ackA), .read (sign seedA conA), .takeAck])
  | .takeAck, .recvInvalidMsg .unexpectedAckMsg => (none, [.read (sign seedA ackA), .read (sign seedA conA), .takeAck])
  | .drain, .connectionHadFail => (none, open3 ++ [.read (user 0), .read noise, .drain])
  | .drain, .recvInvalidMsg .invalidHashOrSig => (none, open3 ++ [.read (badHash 0), .read (sign seedA ackA), .drain])
  | .drain, .recvInvalidMsg .invalidNonce =>
    (none, open3 ++ [.read (user 0), .read (user 0), .read (sign seedA ackA), .drain])
  | .connect, .connectionHadFail => (none, [.read noise, .connect pkB none])
  | .connect, .connectMsgAlreadyWritten => (none, open2 ++ [.connect pkB none])
  | .ack, .connectionHadFail => (none, [.read noise, .ack none])
  | .ack, .forbidWriteAckMsgNow => (none, [.ack none])
  | .write, .connectionHadFail => (none, [.read noise, .write [] sink])
  | .write, .negoMustHaveBeenSuccessful => (none, [.write [] sink])
  | .write, .failToEncryptData .writeZero => (none, open4 ++ [.write [] ⟨0, [], ⟨[], [.accept 0]⟩⟩])
  | .write, .failToEncryptData .interrupted => (none, open4 ++ [.write [] ⟨0, [], ⟨[], [.accept 1000, .interrupted]⟩⟩])
  | .write, .failToEncryptData .other => (none, open4 ++ [.write [] ⟨0, [], ⟨[], [.fail]⟩⟩])
  | .clone, .negoMustHaveBeenSuccessful => (none, [.clone])
  | .config, .forbidChangeConfAfterClone => (none, open4 ++ [.clone, .config Config.default])
  | _, _ => (none, [])

/-- The story ends with the error. -/
def told (fn : Fn) (e : Error) : Bool :=
  (play (env false) (layer0 [2] (story fn e).1) (story fn e).2 []).1.any fun ev => decide (ev.fn = fn ∧ ev.error = some e)

/-- All errors and functions. -/
def incomings : List IncomingMsgErr :=
  [.invalidChallenge, .invalidHashOrSig, .invalidMagicValue, .invalidNonce, .messageTooShort, .unexpectedAckMsg,
   .unexpectedConnectMsg, .unexpectedMessage, .unexpectedEncryptionState, .unknownMessageFormat, .unknownMessageType,
   .unsupportedSigAlgo, .unsupportedVersion]
def ios : List IoError := [.writeZero, .interrupted, .other]
def serdes : List SerdeError := [.bincodeError, .cborError, .jsonError, .useSuffixedBinFunctions]
def errors : List Error :=
  [.bufferFlushError, .connectionHadFail, .connectMsgAlreadyWritten, .failToComputeAgreement, .failToDecryptData,
   .failToGenEphemerKeyPair, .failToGenEphemerPubKey, .failtoGenSigKeyPair, .forbidChangeConfAfterClone,
   .forbidWriteAckMsgNow, .negoMustHaveBeenSuccessful, .tooManyUnorderedMsgs, .unexpectedRemoteSigPubKey, .zipError] ++
  ios.map .failToEncryptData ++ ios.map .writeError ++ serdes.map .serdeError ++ incomings.map .recvInvalidMsg
def fns : List Fn := [.read, .takeAck, .drain, .connect, .ack, .write, .clone, .config]
def cfns : List CFn := [.readBin, .readSer, .connectBin, .connectSer, .ackBin, .ackSer, .writeBin, .writeSer, .clone, .config]
def builds : List Features :=
  [true, false].flatMap fun a => [true, false].flatMap fun b => [true, false].map fun c => ⟨a, b, c⟩

theorem mem_errors (e : Error) : e ∈ errors := by
  cases e with
  | failToEncryptData x => cases x <;> decide
  | serdeError x => cases x <;> decide
  | recvInvalidMsg x => cases x <;> decide
  | writeError x => cases x <;> decide
  | _ => decide
theorem mem_fns (fn : Fn) : fn ∈ fns := by cases fn <;> decide
theorem mem_cfns (fn : CFn) : fn ∈ cfns := by cases fn <;> decide
theorem mem_builds (f : Features) : f ∈ builds := by rcases f with ⟨_ | _, _ | _, _ | _⟩ <;> decide

theorem all_told : (fns.all fun fn => errors.all fun e =>
    !errorsOf fn e || decide (e = .tooManyUnorderedMsgs) || told fn e) = true := by decide +kernel

/-- Toy party B with an early message of a large number, negotiated. -/
def stacked : Layer := { b4 with tmpStack := [userPlain cr 20000 []] }

theorem reach_stacked (oc : Bool) : Reach (env oc) stB stacked :=
  ((reach_b3 oc).step (.read (cipherOf cr key 20000 [])) rfl).step (.read (sign seedA ackA))
    (by cases oc <;> decide +kernel)

theorem drain_overflow (oc : Bool) {N : Nat} (hN : N = 10000) : ∃ h s, Run (env oc) stB h s ∧
    (s.drainTmpStack (env oc)).2 = .err .tooManyUnorderedMsgs := by
  obtain ⟨h, hr⟩ := reach_stacked oc
  have hfst : ((List.range N).map fun i => (i + 1, ([] : Bytes))).map Prod.fst =
      (List.range N).map (· + 1) := by simp
  have hnd : ((List.range N).map (· + 1)).Nodup := List.nodup_range.map fun _ _ => by simp
  obtain ⟨e, O, g1, g2, g3⟩ := readAll_state (env := env oc) lawful key_stream
    ((List.range N).map fun i => (i + 1, ([] : Bytes))) (s := stacked) (D := []) rfl rfl (Wf.of_run hr).win
    ⟨by simp, by intro m; simp [Layer.seen, stacked, b4, met, layer0]⟩
    (by intro x hx; simp at hx; obtain ⟨i, hi, rfl⟩ := hx; simp; omega) (by simp [u64Size]; omega)
    ((flow_iff _ _ (by rw [hfst]; simpa using hnd) (by simp)).mpr (by
      intro m _
      rw [hfst]
      have : (overtakers ([] ++ (List.range N).map (· + 1)) m).length ≤ ((List.range N).map (· + 1)).length := by
        unfold overtakers
        exact (List.length_filter_le _ _).trans ((List.takeWhile_sublist _).length_le)
      simp only [List.length_map, List.length_range] at this
      omega))
  rw [hfst, List.nil_append] at g3
  have hseen : ∀ m, ({ stacked with nextNonceExpected := e, orphanNonces := O } : Layer).seen m ↔
      m ∈ (List.range N).map (· + 1) := g3.seen
  simp only [Layer.seen] at hseen
  have he : e = 0 := by
    by_contra hne
    have := (hseen 0).mp (.inl (by omega))
    simp at this
  subst he
  have hcard : N ≤ O.card := by
    have hsub : (Finset.range N).image (· + 1) ⊆ O := by
      intro m hm
      simp only [Finset.mem_image, Finset.mem_range] at hm
      rcases (hseen m).mpr (by simpa using hm) with h | h
      · omega
      · exact h
    have := Finset.card_le_card hsub
    rwa [Finset.card_image_of_injective _ (fun _ _ => by simp), Finset.card_range] at this
  refine ⟨_, _, readAll_run hr (((List.range N).map fun i => (i + 1, ([] : Bytes))).map
    fun x => cipherOf (env oc).cr key x.1 x.2), ?_⟩
  rw [g1]
  have hfresh : ¬ ({ stacked with nextNonceExpected := 0, orphanNonces := O, tmpStack := [] } : Layer).seen 20000 := by
    intro hs
    have := (hseen 20000).mp hs
    simp at this
    omega
  have hd := readInner_stacked_eval (env := env oc) (n := 20000)
    (b := { stacked with nextNonceExpected := 0, orphanNonces := O, tmpStack := [] }) [] lawful
    (by decide) (by decide) rfl hfresh
  have hu : ({ stacked with nextNonceExpected := 0, orphanNonces := O, tmpStack := [] } : Layer).updateNonces (env oc) 20000 =
      ({ stacked with nextNonceExpected := 0, orphanNonces := O, tmpStack := [], status := .fail }, .err .tooManyUnorderedMsgs) := by
    unfold Layer.updateNonces
    rw [if_neg (by simp), if_pos (by simp only [MAX_ORPHAN_NONCES]; omega)]
  rw [hu] at hd
  show (Layer.drainLoop (env oc) { stacked with nextNonceExpected := 0, orphanNonces := O, tmpStack := [] }
    [userPlain (env oc).cr 20000 []] []).2 = _
  unfold Layer.drainLoop
  rw [hd]

/-- Toy party B's calls in the complete mode. -/
def bad : Codec Unit := ⟨fun _ => none, fun _ => none, fun _ => none, fun _ => none, fun _ => none, fun _ => none⟩
def good : Codec Unit := ⟨fun _ => some [], fun _ => some (), fun _ => some [], fun _ => some (), fun _ => some [], fun _ => some ()⟩
def copen2 : List (COp Unit) := [.readBin cconA, .connectBin none sink]
def copen3 : List (COp Unit) := copen2 ++ [.ackBin none sink]
def copen4 : List (COp Unit) := copen3 ++ [.readBin cackA]
/-- Writers that fail. -/
def jammed : BufW := ⟨0, [], ⟨[], [.fail]⟩⟩
def stuck : BufW := ⟨0, [], ⟨[], [.accept 0]⟩⟩
def disturbed : BufW := ⟨0, [], ⟨[], [.accept 1000, .interrupted]⟩⟩

/-- Toy party B's expectation, its calls, and the byte string it reads at last, with the error. -/
def tale : Error → Option Bytes × List (COp Unit) × Bytes
  | .connectionHadFail => (none, [.readBin noise], cconA)
  | .failToComputeAgreement => (none, [], conZero)
  | .failToDecryptData => (none, copen4, noise)
  | .unexpectedRemoteSigPubKey => (some pkB, [], cconA)
  | .zipError => (none, [], sign seedA (connectFrame (xpub [1]) pkA [9]))
  | .recvInvalidMsg .invalidChallenge => (none, copen2, sign seedA (ackFrame (cr.sha256 (xpub [1])) []))
  | .recvInvalidMsg .invalidHashOrSig => (none, [], sign seedB conA)
  | .recvInvalidMsg .invalidMagicValue => (none, copen2, aeadSeal cr key noise)
  | .recvInvalidMsg .invalidNonce => (none, copen4 ++ [.readBin (user 0)], user 0)
  | .recvInvalidMsg .messageTooShort => (none, copen4, cipherOf cr key 0 [0, 0, 0, 0])
  | .recvInvalidMsg .unexpectedAckMsg => (none, copen4, cackA)
  | .recvInvalidMsg .unexpectedConnectMsg => (none, copen4, cconA)
  | .recvInvalidMsg .unexpectedMessage => (none, [], noise)
  | .recvInvalidMsg .unexpectedEncryptionState => (none, copen2, aeadSeal cr key cackA)
  | .recvInvalidMsg .unknownMessageFormat => (none, copen4, cipherOf cr key 0 [0, 0, 0, 0, 5])
  | .recvInvalidMsg .unknownMessageType => (none, [], conA.set 17 7)
  | .recvInvalidMsg .unsupportedSigAlgo => (none, [], conA.set 50 7)
  | .recvInvalidMsg .unsupportedVersion => (none, [], conA.set 7 7)
  | .serdeError .bincodeError => (none, copen4, cipherOf cr key 0 [0, 0, 0, 0, 4])
  | .serdeError .cborError => (none, copen4, cipherOf cr key 0 [0, 0, 0, 0, 3])
  | .serdeError .jsonError => (none, copen4, cipherOf cr key 0 [0, 0, 0, 0, 2])
  | .serdeError .useSuffixedBinFunctions => (none, copen4, cipherOf cr key 0 [0, 0, 0, 0, 0])
  | _ => (none, [], noise)

/-- A format of the codec that fails, or else one that the build has. -/
def fmtOf (f : Features) : Error → MessageFormat
  | .serdeError .bincodeError => .bincode
  | .serdeError .cborError => .cbor
  | .serdeError .jsonError => .utf8Json
  | .serdeError .useSuffixedBinFunctions => .rawBinary
  | _ => if f.bin then .bincode else if f.cbor then .cbor else if f.json then .utf8Json else .rawBinary

/-- Toy party B's calls before a call that fails. -/
def before : CFn → Error → List (COp Unit)
  | _, .connectionHadFail => [.readBin noise]
  | .connectBin, .connectMsgAlreadyWritten => copen2
  | .connectSer, .connectMsgAlreadyWritten => copen2
  | .ackBin, .bufferFlushError => copen2
  | .ackSer, .bufferFlushError => copen2
  | .config, _ => copen4 ++ [.clone]
  | _, .failToEncryptData _ => copen4
  | _, _ => []

/-- The writer of a call that fails. -/
def through : Error → BufW
  | .bufferFlushError => jammed
  | .failToEncryptData .writeZero => stuck
  | .failToEncryptData .interrupted => disturbed
  | .failToEncryptData .other => jammed
  | _ => sink

/-- Custom data that cannot be serialised, or none. -/
def custom : Error → Option Unit
  | .serdeError _ => some ()
  | _ => none

/-- The codec of a call that fails. -/
def coding : Error → Codec Unit
  | .serdeError _ => bad
  | _ => good

/-- The calls that end with the error. -/
def cstory (fn : CFn) (e : Error) : List (COp Unit) :=
  match fn with
  | .readBin => (tale e).2.1 ++ [.readBin (tale e).2.2]
  | .readSer => (tale e).2.1 ++ [.readSer bad (tale e).2.2]
  | .connectBin => before fn e ++ [.connectBin none (through e)]
  | .connectSer => before fn e ++ [.connectSer (coding e) (custom e) (through e)]
  | .ackBin => before fn e ++ [.ackBin none (through e)]
  | .ackSer => before fn e ++ [.ackSer (coding e) (custom e) (through e)]
  | .writeBin => before fn e ++ [.writeBin [] (through e)]
  | .writeSer => before fn e ++ [.writeSer (coding e) () (through e)]
  | .clone => [.clone]
  | .config => before fn e ++ [.config Config.default]

def cstart (f : Features) (fn : CFn) (e : Error) : CStart :=
  ⟨{ Config.default with messageFormat := fmtOf f e },
    (match fn with
    | .readBin => (tale e).1
    | .readSer => (tale e).1
    | _ => none), [2], some seedB, []⟩

/-- Make calls one after another. -/
def cplay (env : Env) (f : Features) (sl : SecureLayer) :
    List (COp Unit) → List (CEvent Unit) → List (CEvent Unit) × SecureLayer
  | [], h => (h, sl)
  | op :: ops, h => cplay env f (cstep env f sl op).1 ops (h ++ [(cstep env f sl op).2])

theorem cplay_run {env : Env} {f : Features} {st : CStart} {sl : SecureLayer} {h : List (CEvent Unit)} (hr : CRun env f st h sl)
    (ops : List (COp Unit)) : CRun env f st (cplay env f sl ops h).1 (cplay env f sl ops h).2 := by
  induction ops generalizing sl h with
  | nil => exact hr
  | cons op ops ih => exact ih (hr.call op)

def cfirst (st : CStart) : SecureLayer := ⟨{ layer0 st.random st.expected with config := st.config }, some st.sigSeed⟩

def ctold (f : Features) (fn : CFn) (e : Error) : Bool :=
  (cplay (env false) f (cfirst (cstart f fn e)) (cstory fn e) []).1.any fun ev => decide (ev.fn = fn ∧ ev.error = some e)

/-- Not reached by a story. -/
def apart (fn : CFn) (e : Error) : Bool :=
  decide (e = .tooManyUnorderedMsgs) || decide ((fn = .ackBin ∨ fn = .ackSer) ∧ e = .connectMsgAlreadyWritten)

theorem all_ctold : (builds.all fun f => cfns.all fun fn => errors.all fun e =>
    !cerrorsOf f fn e || apart fn e || ctold f fn e) = true := by decide +kernel

theorem all_has : (builds.all fun f => cfns.all fun fn => errors.all fun e =>
    !cerrorsOf f fn e || (fmtOf f e).enabled f) = true := by decide +kernel

theorem cplay_has {env : Env} {f : Features} {sl : SecureLayer} {h : List (CEvent Unit)} {ops : List (COp Unit)}
    (hh : ∀ ev ∈ h, ev.Has f) (ho : ∀ c, COp.config c ∈ ops → Config.Has f c) :
    ∀ ev ∈ (cplay env f sl ops h).1, ev.Has f := by
  induction ops generalizing sl h with
  | nil => exact hh
  | cons op ops ih =>
    refine ih ?_ fun c hc => ho c (by simp [hc])
    intro ev hev
    simp only [List.mem_append, List.mem_singleton] at hev
    rcases hev with hev | rfl
    · exact hh ev hev
    · cases op <;> first | trivial | exact ho _ (by simp)

theorem all_plain : (cfns.all fun fn => errors.all fun e => (cstory fn e).all fun op =>
    match op with
    | .config c => decide (c.messageFormat = .rawBinary)
    | _ => true) = true := by decide +kernel

theorem cstory_has {f : Features} (fn : CFn) (e : Error) (c : Config) (h : COp.config c ∈ cstory fn e) : Config.Has f c := by
  have h1 := all_plain
  rw [List.all_eq_true] at h1
  have h2 := h1 fn (mem_cfns fn)
  rw [List.all_eq_true] at h2
  have h3 := h2 e (mem_errors e)
  rw [List.all_eq_true] at h3
  have h4 := of_decide_eq_true (h3 _ h)
  unfold Config.Has
  rw [h4]
  rfl

theorem readBins_reach {env : Env} {f : Features} {st : CStart} {sl : SecureLayer} {h : List (CEvent Unit)}
    (hr : CRun env f st h sl) (hh : ∀ ev ∈ h, ev.Has f) {l : List Bytes} {e : Error}
    (he : .err e ∈ (readBins env sl l).2) :
    ∃ (h' : List (CEvent Unit)) (sl' : SecureLayer) (inc : Bytes), CRun env f st h' sl' ∧ (∀ ev ∈ h', ev.Has f) ∧
      (sl'.readBin env inc).2 = .err e := by
  induction l generalizing h sl with
  | nil => simp [readBins] at he
  | cons b l ih =>
    simp only [readBins, List.mem_cons] at he
    rcases he with he | he
    · exact ⟨h, sl, b, hr, hh, he.symm⟩
    · refine ih (hr.call (.readBin b)) ?_ he
      intro ev hev
      simp only [List.mem_append, List.mem_singleton] at hev
      rcases hev with hev | rfl
      · exact hh ev hev
      · trivial

theorem cnegotiated (f : Features) : ∃ h : List (CEvent Unit), CRun (env false) f cstB h (csB b4) ∧ ∀ ev ∈ h, ev.Has f := by
  refine ⟨_, ?_, cplay_has (env := env false) (sl := csB (layer0 [2] none)) (h := []) (ops := copen4) (by simp)
    (by simp [copen4, copen3, copen2])⟩
  have := cplay_run (f := f) (CRun.init (M := Unit) (env := env false) (st := cstB) (sl := csB (layer0 [2] none)) rfl) copen4
  have h2 : ∀ f ∈ builds, (cplay (env false) f (csB (layer0 [2] none)) copen4 []).2 = csB b4 := by decide +kernel
  rwa [h2 f (mem_builds f)] at this

theorem verdicts_length (D l : List Nat) (ended : Bool) : (verdicts D ended l).length = l.length := by
  induction l generalizing D ended with
  | nil => rfl
  | cons n l ih => unfold verdicts; split_ifs <;> simp [ih]

theorem coverflow (f : Features) {N : Nat} (hN : N = 10001) : ∃ (h : List (CEvent Unit)) (sl : SecureLayer) (inc : Bytes),
    CRun (env false) f cstB h sl ∧ (∀ ev ∈ h, ev.Has f) ∧ (sl.readBin (env false) inc).2 = .err .tooManyUnorderedMsgs := by
  obtain ⟨h, hr, hh⟩ := cnegotiated f
  obtain ⟨h1, -⟩ := readBins_verdicts (env := env false) lawful key_stream
    ((List.range N).map fun i => ⟨i + 1, 0, []⟩) (sl := csB b4) (D := []) (ended := false) rfl rfl hr.wf.win
    ⟨by simp, by intro m; simp [Layer.seen, csB, b4, met, layer0]⟩
    (by intro x hx; simp at hx; obtain ⟨i, hi, rfl⟩ := hx; simp [Parcel.Fits, Parcel.packed, env, cr]; omega)
    (by simp [u64Size]; omega)
  refine readBins_reach hr hh (l := ((List.range N).map fun i => (⟨i + 1, 0, []⟩ : Parcel)).map (Parcel.bytes (env false).cr key)) ?_
  rw [h1]
  have hnum : ((List.range N).map fun i => (⟨i + 1, 0, []⟩ : Parcel)).map Parcel.num = (List.range N).map (· + 1) := by simp
  have hnd : ((List.range N).map (· + 1)).Nodup := List.nodup_range.map fun _ _ => by simp
  have ho : .overflow ∈ verdicts [] false (((List.range N).map fun i => (⟨i + 1, 0, []⟩ : Parcel)).map Parcel.num) := by
    by_contra hc
    rw [hnum] at hc
    have h1 := (survives_iff _).mp hc 0
    have h2 : ((List.range N).map (· + 1)).Subperm (overtakers ((List.range N).map (· + 1)).eraseDups 0) := by
      refine List.subperm_of_subset hnd fun n hn => ?_
      unfold overtakers
      rw [List.takeWhile_eq_self_iff.mpr]
      · rw [List.mem_filter, List.mem_eraseDups]
        refine ⟨hn, ?_⟩
        obtain ⟨i, -, rfl⟩ := List.mem_map.mp hn
        simp
      · intro y hy
        rw [List.mem_eraseDups] at hy
        obtain ⟨z, hz, rfl⟩ := List.mem_map.mp hy
        simp
    have := h2.length_le
    simp only [List.length_map, List.length_range] at this
    omega
  obtain ⟨j, hj, hv⟩ := List.mem_iff_getElem.mp ho
  have hlen : j < ((List.range N).map fun i => (⟨i + 1, 0, []⟩ : Parcel)).length := by
    rw [verdicts_length] at hj
    simpa using hj
  rw [List.mem_iff_getElem]
  refine ⟨j, by simp only [List.length_zipWith]; omega, ?_⟩
  rw [List.getElem_zipWith, hv]
  rfl

end Toy

/-- Draining overflows for toy party B. -/
example : ∃ h s, Run (Toy.env true) Toy.stB h s ∧ (s.drainTmpStack (Toy.env true)).2 = .err .tooManyUnorderedMsgs :=
  Toy.drain_overflow true rfl

/-- **C74.** The errors of a function of the minimal mode are exactly the listed ones: in no history of any layer does it
return another one, and each of them is returned in some history with lawful primitives. -/
theorem C74_minimal (fn : Fn) (e : Error) :
    errorsOf fn e = true ↔
      ∃ (env : Env) (st : Start) (h : List Event) (s : Layer), env.cr.Lawful ∧ Run env st h s ∧
        ∃ ev ∈ h, ev.fn = fn ∧ ev.error = some e := by
  constructor
  · intro he
    by_cases ht : e = .tooManyUnorderedMsgs
    · subst ht
      cases fn <;> try (simp [errorsOf, writeErrors] at he; done)
      · obtain ⟨h, s, inc, hr, h1⟩ := toy_overflow false rfl
        exact ⟨_, _, _, _, Toy.lawful, hr.call (.read inc), .read inc (s.read (Toy.env false) inc).2,
          by simp [step], rfl, errorIn_iff.mpr h1⟩
      · obtain ⟨h, s, hr, h1⟩ := Toy.drain_overflow false rfl
        exact ⟨_, _, _, _, Toy.lawful, hr.call .drain, .drain (s.drainTmpStack (Toy.env false)).2,
          by simp [step], rfl, errorIn_iff.mpr h1⟩
    · have h1 := Toy.all_told
      rw [List.all_eq_true] at h1
      have h2 := h1 fn (Toy.mem_fns fn)
      rw [List.all_eq_true] at h2
      have h3 := h2 e (Toy.mem_errors e)
      simp only [he, ht, decide_false, Bool.not_true, Bool.or_self, Bool.false_or] at h3
      unfold Toy.told at h3
      obtain ⟨ev, hev, h4⟩ := List.any_eq_true.mp h3
      exact ⟨_, _, _, _, Toy.lawful, Toy.play_run (Toy.run0 false _ _) _, ev, hev, of_decide_eq_true h4⟩
  · rintro ⟨env, st, h, s, -, hr, ev, hev, rfl, he⟩
    exact run_listed hr hev he

/-- **C74.** The same for the complete mode, in a build with the features `f`. -/
theorem C74_complete (f : Features) (fn : CFn) (e : Error) :
    cerrorsOf f fn e = true ↔
      ∃ (M : Type) (env : Env) (st : CStart) (h : List (CEvent M)) (sl : SecureLayer), env.cr.Lawful ∧ CRun env f st h sl ∧
        Config.Has f st.config ∧ (∀ ev ∈ h, ev.Has f) ∧ ∃ ev ∈ h, ev.fn = fn ∧ ev.error = some e := by
  constructor
  · intro he
    by_cases ha : Toy.apart fn e = true
    · unfold Toy.apart at ha
      rw [Bool.or_eq_true, decide_eq_true_eq, decide_eq_true_eq] at ha
      rcases ha with rfl | ⟨hfn, rfl⟩
      · obtain ⟨h, sl, inc, hr, hh, h1⟩ := Toy.coverflow f rfl
        have hser : (sl.readSer (Toy.env false) f Toy.bad inc).2 = .err .tooManyUnorderedMsgs := by
          unfold SecureLayer.readSer
          rcases hq : sl.readBin (Toy.env false) inc with ⟨sl', ms | e' | p⟩ <;> rw [hq] at h1 <;> simp_all
        cases fn <;> try (simp [cerrorsOf, connectErrors, ackErrors, writeErrors, codecErrors] at he; done)
        · refine ⟨Unit, _, _, _, _, Toy.lawful, hr.call (.readBin inc), rfl, ?_, .readBin inc _, by simp [cstep], rfl,
            errorIn_iff.mpr h1⟩
          simpa [cstep, or_imp, forall_and, CEvent.Has] using hh
        · refine ⟨Unit, _, _, _, _, Toy.lawful, hr.call (.readSer Toy.bad inc), rfl, ?_, .readSer Toy.bad inc _,
            by simp [cstep], rfl, errorIn_iff.mpr hser⟩
          simpa [cstep, or_imp, forall_and, CEvent.Has] using hh
      · obtain ⟨h, hr, hh⟩ := Toy.cnegotiated f
        have hc := CRun.cloned hr (c := ⟨{ Toy.b4 with cloned := true, peerEpk := none, peerSigPubkey := none }, none⟩) rfl
        rcases hfn with rfl | rfl
        · refine ⟨Unit, _, _, _, _, Toy.lawful, hc.call (.ackBin none Toy.sink), rfl, ?_,
            .ackBin none Toy.sink Toy.sink (.err .connectMsgAlreadyWritten), by simp [cstep, SecureLayer.writeAckBin, SecureLayer.writeAckRaw], rfl, rfl⟩
          simpa [cstep, or_imp, forall_and, CEvent.Has] using hh
        · refine ⟨Unit, _, _, _, _, Toy.lawful, hc.call (.ackSer Toy.bad none Toy.sink), rfl, ?_,
            .ackSer Toy.bad none Toy.sink Toy.sink (.err .connectMsgAlreadyWritten),
            by simp [cstep, SecureLayer.writeAckSer, SecureLayer.serializeOpt, SecureLayer.writeAckRaw], rfl, rfl⟩
          simpa [cstep, or_imp, forall_and, CEvent.Has] using hh
    · have h1 := Toy.all_ctold
      rw [List.all_eq_true] at h1
      have h2 := h1 f (Toy.mem_builds f)
      rw [List.all_eq_true] at h2
      have h3 := h2 fn (Toy.mem_cfns fn)
      rw [List.all_eq_true] at h3
      have h4 := h3 e (Toy.mem_errors e)
      simp only [he, ha, Bool.not_true, Bool.or_self, Bool.false_or] at h4
      have g1 := Toy.all_has
      rw [List.all_eq_true] at g1
      have g2 := g1 f (Toy.mem_builds f)
      rw [List.all_eq_true] at g2
      have g3 := g2 fn (Toy.mem_cfns fn)
      rw [List.all_eq_true] at g3
      have g4 := g3 e (Toy.mem_errors e)
      simp only [he, Bool.not_true, Bool.false_or] at g4
      unfold Toy.ctold at h4
      obtain ⟨ev, hev, h5⟩ := List.any_eq_true.mp h4
      exact ⟨Unit, _, _, _, _, Toy.lawful,
        Toy.cplay_run (CRun.init (M := Unit) (env := Toy.env false) (st := Toy.cstart f fn e) rfl) _, g4,
        Toy.cplay_has (by simp) (Toy.cstory_has fn e), ev, hev, of_decide_eq_true h5⟩
  · rintro ⟨M, env, st, h, sl, -, hr, hst, hh, ev, hev, rfl, he⟩
    exact (crun_listed hr hst hh).2 ev hev e he

/-- Some entries: `read` knows no format, the typed `read` does; a build without codecs never reports a codec error, and its
typed `write` never gets as far as a failed negotiation. -/
example : errorsOf .read (.recvInvalidMsg .unknownMessageFormat) = false ∧
    cerrorsOf ⟨false, false, false⟩ .readSer (.recvInvalidMsg .unknownMessageFormat) = true ∧
    cerrorsOf ⟨true, false, true⟩ .readSer (.serdeError .cborError) = false ∧
    cerrorsOf ⟨true, false, true⟩ .readSer (.serdeError .jsonError) = true ∧
    cerrorsOf ⟨false, false, false⟩ .writeSer .connectionHadFail = false ∧
    cerrorsOf ⟨false, true, false⟩ .writeSer .connectionHadFail = true := by decide

end Pkstl
