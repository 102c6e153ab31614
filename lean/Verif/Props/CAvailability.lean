import Verif.Lemmas.Agree
import Verif.Props.Availability
import Verif.Props.Catalogue
import Verif.Spec.CFatal
/- C60 in the complete mode, in any state. -/
namespace Pkstl
open Spec

section
variable {env : Env} {st : Start} {s : Layer}

/-- A user message ends a session that awaits user messages only by overflow. -/
theorem readUser_fail_iff {d : DecryptedIncomingData} {n : Nat} (hs : late s) (hf : s.status ≠ .fail) :
    (s.readUser env d n).1.status = .fail ↔ (s.readUser env d n).2 = .err .tooManyUnorderedMsgs := by
  refine ⟨fun h => ?_, fun h => (readUser_overflow h).2.1⟩
  rcases hq : s.readUser env d n with ⟨s', r⟩
  rw [hq] at h
  dsimp only at h ⊢
  unfold Layer.readUser at hq
  split at hq
  · simp only [Prod.mk.injEq] at hq
    obtain ⟨rfl, rfl⟩ := hq
    exact absurd h hf
  rcases hs with hs | hs | hs
  · rw [hs] at hq
    simp only [Status.applyAction, and_self, if_true, Prod.mk.injEq] at hq
    obtain ⟨rfl, rfl⟩ := hq
    simp at h
  · rw [hs] at hq
    simp only [Status.applyAction, sliceTo, sliceFrom] at hq
    by_cases hl : d.userMsgEnd ≤ d.data.length
    swap
    · simp only [if_neg hl, Prod.mk.injEq] at hq
      obtain ⟨rfl, rfl⟩ := hq
      simp at h
    simp only [if_pos hl] at hq
    split at hq
    · simp only [Prod.mk.injEq] at hq
      obtain ⟨rfl, rfl⟩ := hq
      simp at h
    have key : ∀ {s' r}, Layer.updateNonces env { s with status := .success } n = (s', r) →
        s'.status = .fail → r = .err .tooManyUnorderedMsgs := by
      intro s' r hu hfl
      unfold Layer.updateNonces at hu
      split at hu
      · split at hu
        · simp only [Prod.mk.injEq] at hu
          obtain ⟨rfl, rfl⟩ := hu
          simp at hfl
        · simp only [Prod.mk.injEq] at hu
          obtain ⟨rfl, rfl⟩ := hu
          simp at hfl
      · split at hu <;> simp only [Prod.mk.injEq] at hu <;> obtain ⟨rfl, rfl⟩ := hu
        · rfl
        · simp at hfl
    rcases hu : Layer.updateNonces env { s with status := .success } n with ⟨s2, u | e | p⟩ <;> rw [hu] at hq <;>
      simp only [Prod.mk.injEq] at hq <;> obtain ⟨rfl, rfl⟩ := hq
    · exact absurd (key hu h) (by simp)
    · have := key hu h
      simp only [Res.err.injEq] at this
      rw [this]
    · exact absurd (key hu h) (by simp)
  · exact absurd hs hf

theorem drainLoop_fail_iff {l : List Bytes} {ms : List Message} (hs : l ≠ [] → late s) (hf : s.status ≠ .fail)
    (hl : ∀ b ∈ l, ∃ n d, parseClear env true b true = .ok d ∧ d.msgTypeHeaders = .userMsg n) :
    (s.drainLoop env l ms).1.status = .fail ↔ (s.drainLoop env l ms).2 = .err .tooManyUnorderedMsgs := by
  induction l generalizing s ms with
  | nil => simpa [Layer.drainLoop] using hf
  | cons b l ih =>
    obtain ⟨n, d, hp, hh⟩ := hl b (by simp)
    have hl' : ∀ b ∈ l, ∃ n d, parseClear env true b true = .ok d ∧ d.msgTypeHeaders = .userMsg n :=
      fun b hb => hl b (by simp [hb])
    have h1 := readUser_fail_iff (env := env) (d := d) (n := n) (hs (by simp)) hf
    have h2 := (readUser_listed (env := env) (d := d) (n := n) (hs (by simp))).2
    unfold Layer.drainLoop
    rw [readInner_stacked s hp hh]
    rcases hq : s.readUser env d n with ⟨s', (_ | m) | e | p⟩ <;> rw [hq] at h1 h2 <;> dsimp only at h1 h2 ⊢
    · exact ih (fun _ => h2) (fun h => by simpa using h1.mp h) hl'
    · exact ih (fun _ => h2) (fun h => by simpa using h1.mp h) hl'
    · simpa using h1
    · simpa using h1

theorem drain_fail_iff (hw : Wf env st s) (hf : s.status ≠ .fail) :
    (s.drainTmpStack env).1.status = .fail ↔ (s.drainTmpStack env).2 = .err .tooManyUnorderedMsgs :=
  drainLoop_fail_iff (s := { s with tmpStack := [] }) (fun hne => hw.stack hne) hf hw.stackP

/-- Replaying the ACK put aside ends the session only if it is signed and not awaited. -/
theorem takeAck_fail_iff (hw : Wf env st s) (hf : s.status ≠ .fail) {k : Bytes} (hk : s.peerSigPubkey = some k) :
    (s.takeAck env).1.status = .fail ↔ ∃ b n rest, s.ackMsgRecvTooEarly = some b ∧ n < 2 ^ 64 ∧
      (env.overflowChecks = true → 16 + n < 2 ^ 64) ∧
      b = wire n ([0, 2] ++ env.cr.sha256 (env.cr.xPublic st.random)) rest ∧ endOf n ≤ b.length ∧
      env.cr.edVerify k (b.take (endOf n)) (b.drop (endOf n)) = true ∧
      ∀ rem, s.status ≠ .ongoing .connectMsgSent rem := by
  unfold Layer.takeAck
  cases ha : s.ackMsgRecvTooEarly with
  | none => simpa using hf
  | some b =>
    obtain ⟨h4, d, hp, hh⟩ := hw.ackP b ha
    have hrd : readerRead env s.secret b true = .ok d := (readerRead_clear h4).trans hp
    obtain ⟨n, rest, hn, hoc, hx, hok, hd, he, -⟩ := parse_wire_inv hp
    rw [hh] at hx
    have hw1 : ∀ {n' rest'}, n' < 2 ^ 64 → (env.overflowChecks = true → 16 + n' < 2 ^ 64) →
        b = wire n' ([0, 2] ++ env.cr.sha256 (env.cr.xPublic st.random)) rest' → endOf n' = endOf n := by
      intro n' rest' hn' hoc' hx'
      have h5 := parse_wire (env := env) (enc := false) (chk := true)
        (h := .ack (env.cr.sha256 (env.cr.xPublic st.random))) rest' hn' hoc' (hh ▸ hok) (fun _ => rfl)
      have hx'' : b = wire n' (hdrBytes (.ack (env.cr.sha256 (env.cr.xPublic st.random)))) rest' := hx'
      rw [← hx'', hp] at h5
      simp only [Res.ok.injEq] at h5
      have := congrArg DecryptedIncomingData.userMsgEnd h5
      exact (this.symm.trans he)
    dsimp only
    unfold Layer.read Layer.readInner
    dsimp only
    rw [hrd]
    dsimp only
    rw [hh]
    dsimp only
    unfold Layer.readAck
    dsimp only
    rw [hw.epub, if_neg (by simp), hk]
    dsimp only
    rw [verifySig_eq, hd, he]
    constructor
    · intro h
      by_cases hl : endOf n ≤ b.length
      · rw [if_pos hl] at h
        rcases hv : env.cr.edVerify k (b.take (endOf n)) (b.drop (endOf n)) with _ | _ <;> rw [hv] at h <;>
          dsimp only at h
        · exact absurd h hf
        · refine ⟨b, n, rest, rfl, hn, hoc, hx, hl, hv, ?_⟩
          intro rem hs
          rw [hs] at h
          cases rem <;> simp [Status.applyAction] at h
      · rw [if_neg hl] at h
        exact absurd h hf
    · rintro ⟨b', n', rest', hb', hn', hoc', hx', hl', hv', hs'⟩
      cases hb'
      have he' := hw1 hn' hoc' hx'
      rw [he'] at hl' hv'
      rw [if_pos hl', hv']
      dsimp only
      rcases hs : s.status with _ | ⟨loc, rem⟩ | _
      · exact absurd hs hf
      · cases loc
        · cases rem <;> simp [Status.applyAction]
        · exact absurd hs (hs' rem)
        · cases rem <;> simp [Status.applyAction]
      · simp [Status.applyAction]

end

section
variable {env : Env} {st : Start} {s : Layer}

/-- What is left behind by a CONNECT that is handed over. -/
theorem connect_handed (hw : Wf env st s) {inc a k : Bytes} {d : Option Bytes}
    (h : (s.read env inc).2 = .ok (some (.connect a k d))) :
    (s.read env inc).1.peerSigPubkey = some k ∧ (s.read env inc).1.ackMsgRecvTooEarly = s.ackMsgRecvTooEarly ∧
      ∃ loc, s.status = .ongoing loc .waitConnectMsg ∧
        (s.read env inc).1.status = .ongoing loc .validConnectMsgReceived := by
  have hcase := read_case env s inc
  generalize hs' : (s.read env inc).1 = s' at hcase
  rw [h] at hcase
  generalize hr : (Res.ok (some (.connect a k d)) : Res (Option Message)) = r at hcase
  cases hcase with
  | @connectOk d epk algo k loc kp sec hp hh hk hl hv hs hkp hsec =>
    rcases getMessage_cases d with ⟨p, hg⟩ | hg <;> rw [hg] at hr <;> simp [hh, reported] at hr
    obtain ⟨-, rfl, -⟩ := hr
    exact ⟨rfl, rfl, loc, hs, rfl⟩
  | connectNoKp hp hh hk hl hv hs hkp => exact absurd hkp (hw.wait _ hs)
  | @ackOk d c k rem hp hh =>
    rcases getMessage_cases d with ⟨p, hg⟩ | hg <;> rw [hg] at hr <;> simp [hh, reported] at hr
  | @userOk d n s' hp hh =>
    rcases getMessage_cases d with ⟨p, hg⟩ | hg <;> rw [hg] at hr <;> simp [hh, reported] at hr
  | _ => cases hr

theorem ok_alive (hw : Wf env st s) (hf : s.status ≠ .fail) (law : env.cr.Lawful) {inc : Bytes} {m : Option Message}
    (h : (s.read env inc).2 = .ok m) : (s.read env inc).1.status ≠ .fail := by
  intro hr
  obtain ⟨-, e, he⟩ := fatal_input_read law hw (read_fatal_input law hw hf hr)
  rw [h] at he; simp at he

theorem uncompressOpt_ok_iff (cr : Crypto) (d : Option Bytes) :
    (∃ x, SecureLayer.uncompressOpt cr d = .ok x) ↔ ∀ x, d = some x → cr.inflate x ≠ none := by
  cases d with
  | none => simp [SecureLayer.uncompressOpt]
  | some b =>
    simp only [SecureLayer.uncompressOpt, SecureLayer.uncompress]
    cases hi : cr.inflate b <;> simp [hi]

end

section
variable {M : Type} {f : Features} {env : Env} {st : CStart} {h : List (CEvent M)} {sl : SecureLayer}

/-- **C60 (partial), complete mode.** In every state of a layer of the complete mode, `read_bin` ends the session exactly on
the inputs of `CFatal`. -/
theorem C60_complete_all_partial (law : env.cr.Lawful) (hr : CRun env f st h sl) (hs : sl.minimal.status ≠ .fail)
    (inc : Bytes) : (sl.readBin env inc).1.minimal.status = .fail ↔ CFatal env st sl inc := by
  obtain ⟨⟨l, hl, -⟩, -⟩ := hr.lower
  have hw := Wf.of_run hl
  have hw' := hw.read inc
  have hin : FatalInput env st.inner sl.minimal inc →
      ∃ e, sl.readBin env inc = ({ sl with minimal := (sl.minimal.read env inc).1 }, .err e) ∧
        (sl.minimal.read env inc).1.status = .fail := by
    intro hi
    obtain ⟨h1, e, h2⟩ := fatal_input_read law hw hi
    refine ⟨e, ?_, h1⟩
    unfold SecureLayer.readBin
    rcases hrd : sl.minimal.read env inc with ⟨m, r⟩
    rw [hrd] at h2
    dsimp only at h2
    rw [h2]
  constructor
  · intro hfl
    by_cases hi : (sl.minimal.read env inc).1.status = .fail
    · exact .input (read_fatal_input law hw hs hi)
    unfold SecureLayer.readBin at hfl
    rcases hq : sl.minimal.read env inc with ⟨m, (_ | msg) | e | p⟩ <;> rw [hq] at hfl hi hw' <;> dsimp only at hfl hi
    · exact absurd hfl hi
    · have hq2 := congrArg Prod.snd hq
      have hq1 := congrArg Prod.fst hq
      dsimp only at hq1 hq2
      cases msg with
      | connect a k d =>
        dsimp only at hfl
        rcases hu : SecureLayer.uncompressOpt env.cr d with cd | e | p <;> rw [hu] at hfl <;> dsimp only at hfl
        · have hc := connect_handed hw hq2
          rw [hq1] at hc
          obtain ⟨c1, c2, loc, c3, c4⟩ := hc
          have hfl' : (m.takeAck env).1.status = .fail := by
            rcases ht : m.takeAck env with ⟨m', (_ | msg') | e | p⟩ <;> rw [ht] at hfl <;> try exact hfl
            cases msg' with
            | ack ad =>
              dsimp only at hfl
              rcases hu2 : SecureLayer.uncompressOpt env.cr ad with x | e | p <;> rw [hu2] at hfl <;> exact hfl
            | _ => exact hfl
          obtain ⟨b, n, rest, g1, g2, g3, g4, g5, g6, g7⟩ := (takeAck_fail_iff hw' hi c1).mp hfl'
          refine .keptAck hq2 ((uncompressOpt_ok_iff _ _).mp ⟨_, hu⟩) (by rw [← c2]; exact g1) g2 g3 g4 g5 g6 ?_
          intro rem hst
          rw [c3] at hst
          simp only [Status.ongoing.injEq] at hst
          rw [c4, hst.1] at g7
          exact g7 _ rfl
        · exact absurd hfl hi
        · exact absurd hfl hi
      | ack d =>
        dsimp only at hfl
        rcases hu : SecureLayer.uncompressOpt env.cr d with cd | e | p <;> rw [hu] at hfl <;> dsimp only at hfl
        · have hfl' : (m.drainTmpStack env).1.status = .fail := by
            rcases ht : m.drainTmpStack env with ⟨m', ms | e | p⟩ <;> rw [ht] at hfl <;> exact hfl
          exact .early hq2 ((uncompressOpt_ok_iff _ _).mp ⟨_, hu⟩) (by rw [hq1]; exact (drain_fail_iff hw' hi).mp hfl')
        · exact absurd hfl hi
        · exact absurd hfl hi
      | message d =>
        dsimp only at hfl
        rcases hu : SecureLayer.uncompressOpt env.cr d with cd | e | p <;> rw [hu] at hfl <;> exact absurd hfl hi
    · exact absurd hfl hi
    · exact absurd hfl hi
  · intro hcf
    cases hcf with
    | input hi =>
      obtain ⟨e, h1, h2⟩ := hin hi
      rw [h1]; exact h2
    | @keptAck a k b rest d n hc hz hb hn hoc hx hle hv hst =>
      obtain ⟨cd, hu⟩ := (uncompressOpt_ok_iff _ _).mpr hz
      obtain ⟨c1, c2, loc, c3, c4⟩ := connect_handed hw hc
      have hfl : ((sl.minimal.read env inc).1.takeAck env).1.status = .fail := by
        refine (takeAck_fail_iff hw' (ok_alive hw hs law hc) c1).mpr
          ⟨b, n, rest, c2.trans hb, hn, hoc, hx, hle, hv, ?_⟩
        intro rem h1
        rw [c4] at h1
        simp only [Status.ongoing.injEq] at h1
        exact hst _ (by rw [c3, h1.1])
      unfold SecureLayer.readBin
      rcases hq : sl.minimal.read env inc with ⟨m, r⟩
      rw [hq] at hc hfl
      dsimp only at hc hfl
      rw [hc]
      dsimp only
      rw [hu]
      dsimp only
      rcases ht : m.takeAck env with ⟨m', (_ | msg') | e | p⟩ <;> rw [ht] at hfl <;> try exact hfl
      cases msg' with
      | ack ad =>
        dsimp only
        rcases hu2 : SecureLayer.uncompressOpt env.cr ad with x | e | p <;> exact hfl
      | _ => exact hfl
    | @early d hc hz hd =>
      obtain ⟨cd, hu⟩ := (uncompressOpt_ok_iff _ _).mpr hz
      have hfl := (drain_fail_iff hw' (ok_alive hw hs law hc)).mpr hd
      unfold SecureLayer.readBin
      rcases hq : sl.minimal.read env inc with ⟨m, r⟩
      rw [hq] at hc hfl
      dsimp only at hc hfl
      rw [hc]
      dsimp only
      rw [hu]
      dsimp only
      rcases ht : m.drainTmpStack env with ⟨m', ms | e | p⟩ <;> rw [ht] at hfl <;> exact hfl

/-- **C60 (partial), complete mode.** The same for `read`, whatever the type and the codec. -/
theorem C60_complete_ser_partial (law : env.cr.Lawful) (hr : CRun env f st h sl) (hs : sl.minimal.status ≠ .fail)
    (c : Codec M) (inc : Bytes) : (sl.readSer env f c inc).1.minimal.status = .fail ↔ CFatal env st sl inc := by
  rw [readSer_state]
  exact C60_complete_all_partial law hr hs inc

end

namespace Toy
variable (f : Features) (oc : Bool)

/-- Toy party B waits for the ACK and has put user messages with these numbers aside. -/
def early (l : List Nat) : Layer := { b3 with tmpStack := l.map fun n => userPlain cr n [] }

theorem creach_early (l : List Nat) (hl : ∀ n ∈ l, n < u64Size) : CReach Unit (env oc) f cstB (csB (early l)) := by
  induction l using List.reverseRecOn with
  | nil => exact creach_b3 Unit f oc
  | append_singleton l n ih =>
    refine (ih fun m hm => hl m (by simp [hm])).read (b := aeadSeal cr key (userPlain cr n [])) ?_
    have := readBin_user_stack_eval (env := env oc) (b := csB (early l)) (n := n) (p := []) lawful (hl n (by simp))
      (by decide) key_stream rfl rfl (by simp [Layer.seen, csB, early, b3, met, layer0])
    have h1 := congrArg Prod.fst this
    refine h1.trans ?_
    simp [csB, early]
    rfl

theorem early_ack (l : List Nat) : (early l).read (env oc) cackA =
    ({ early l with status := .success }, .ok (some (.ack (some [0])))) :=
  read_ack_eval (env := env oc) (b := early l) (c := cr.sha256 (xpub [2])) (k := pkA) (p := [0]) (rem := .ackMsgSent)
    rfl (by decide +kernel) (by decide) (lawful.edVerify_sign _ _) rfl rfl

theorem early_overflow {N : Nat} (hN : N = 10000) :
    (({ early ((List.range N).map (· + 1) ++ [20000]) with status := .success } : Layer).drainTmpStack (env oc)).2 =
      .err .tooManyUnorderedMsgs := by
  have hnd : ((List.range N).map (· + 1)).Nodup := List.nodup_range.map fun _ _ => by simp
  have hfst : ((List.range N).map fun i => (i + 1, ([] : Bytes))).map Prod.fst = (List.range N).map (· + 1) := by simp
  obtain ⟨e, O, g1, g2, g3⟩ := drainLoop_flow (env := env oc) lawful ((List.range N).map fun i => (i + 1, ([] : Bytes))) []
    (s := { b3 with status := .success }) (D := []) rfl ⟨by decide, by decide, by decide⟩
    ⟨by simp, by intro m; simp [Layer.seen, b3, met, layer0]⟩
    (by intro x hx; simp at hx; obtain ⟨i, hi, rfl⟩ := hx; simp; omega) (by simp [u64Size]; omega)
    ((flow_iff _ _ (by rw [hfst]; simpa using hnd) (by simp)).mpr (by
      intro m _
      rw [hfst]
      have : (overtakers ([] ++ (List.range N).map (· + 1)) m).length ≤ ((List.range N).map (· + 1)).length := by
        unfold overtakers
        exact (List.length_filter_le _ _).trans ((List.takeWhile_sublist _).length_le)
      simp only [List.length_map, List.length_range] at this
      omega))
  rw [hfst, List.nil_append] at g3
  have hseen : ∀ m, ({ b3 with status := .success, nextNonceExpected := e, orphanNonces := O } : Layer).seen m ↔
      m ∈ (List.range N).map (· + 1) := g3.seen
  simp only [Layer.seen] at hseen
  have he : e = 0 := by
    by_contra hne
    have := (hseen 0).mp (.inl (by omega))
    simp at this
  subst he
  have hcard : N ≤ O.card := by
    have hsub : (Finset.range N).image (· + 1) ⊆ O := by
      intro m hm
      simp only [Finset.mem_image, Finset.mem_range] at hm
      rcases (hseen m).mpr (by simpa using hm) with h | h
      · omega
      · exact h
    have := Finset.card_le_card hsub
    rwa [Finset.card_image_of_injective _ (fun _ _ => by simp), Finset.card_range] at this
  have hfresh : ¬ ({ b3 with status := .success, nextNonceExpected := 0, orphanNonces := O } : Layer).seen 20000 := by
    intro hs
    have := (hseen 20000).mp hs
    simp at this
    omega
  have hd := readInner_stacked_eval (env := env oc) (n := 20000)
    (b := { b3 with status := .success, nextNonceExpected := 0, orphanNonces := O }) [] lawful
    (by decide) (by decide) rfl hfresh
  have hu : ({ b3 with status := .success, nextNonceExpected := 0, orphanNonces := O } : Layer).updateNonces (env oc) 20000 =
      ({ b3 with nextNonceExpected := 0, orphanNonces := O, status := .fail }, .err .tooManyUnorderedMsgs) := by
    unfold Layer.updateNonces
    rw [if_neg (by simp), if_pos (by simp only [MAX_ORPHAN_NONCES]; omega)]
  rw [hu] at hd
  have hst : ({ early ((List.range N).map (· + 1) ++ [20000]) with status := .success } : Layer).drainTmpStack (env oc) =
      ({ b3 with status := .success } : Layer).drainLoop (env oc)
        (((List.range N).map fun i => (i + 1, ([] : Bytes))).map (fun x => userPlain (env oc).cr x.1 x.2) ++
          [userPlain (env oc).cr 20000 []]) [] := by
    unfold Layer.drainTmpStack
    have : (((List.range N).map fun i => (i + 1, ([] : Bytes))).map (fun x => userPlain (env oc).cr x.1 x.2) ++
          [userPlain (env oc).cr 20000 []]) = (early ((List.range N).map (· + 1) ++ [20000])).tmpStack := by
      simp [early, env, Function.comp_def]
    rw [this]
    rfl
  rw [hst, drainLoop_append, g1]
  dsimp only
  unfold Layer.drainLoop
  rw [hd]

/-- **`keptAck`.** A fresh layer is given an ACK of A and then A's CONNECT. -/
example : ∃ sl, CReach Unit (env oc) f cstB sl ∧ sl.minimal.status ≠ .fail ∧ CFatal (env oc) cstB sl cconA ∧
    ¬ FatalInput (env oc) cstB.inner sl.minimal cconA := by
  have hr : CReach Unit (env oc) f cstB (((csB (layer0 [2] none)).readBin (env oc) cackA).1) := (creach_b0 Unit f oc).read rfl
  have h0 : (((csB (layer0 [2] none)).readBin (env oc) cackA).1).minimal.status ≠ .fail := by cases oc <;> decide +kernel
  obtain ⟨h, hr'⟩ := id hr
  refine ⟨_, hr, h0, (C60_complete_all_partial lawful hr' h0 cconA).mp (by cases oc <;> decide +kernel), ?_⟩
  obtain ⟨⟨l, hl, -⟩, -⟩ := hr'.lower
  intro hi
  have := (fatal_input_read lawful (Wf.of_run hl) hi).1
  revert this
  cases oc <;> decide +kernel

/-- **`early`.** 10001 messages out of order have overtaken the ACK. -/
example : ∃ sl, CReach Unit (env oc) f cstB sl ∧ sl.minimal.status ≠ .fail ∧ CFatal (env oc) cstB sl cackA ∧
    ¬ FatalInput (env oc) cstB.inner sl.minimal cackA := by
  have hr := creach_early f oc ((List.range 10000).map (· + 1) ++ [20000]) (by
    intro n hn
    simp only [List.mem_append, List.mem_map, List.mem_range, List.mem_singleton] at hn
    simp only [u64Size]
    omega)
  have h1 := early_ack oc ((List.range 10000).map (· + 1) ++ [20000])
  refine ⟨_, hr, by simp [csB, early, b3, met, layer0], .early (congrArg Prod.snd h1) (by
    intro x hx; cases hx; cases oc <;> decide +kernel) ?_, ?_⟩
  · rw [show (csB (early ((List.range 10000).map (· + 1) ++ [20000]))).minimal.read (env oc) cackA = _ from h1]
    exact early_overflow oc rfl
  · obtain ⟨h, hr⟩ := hr
    obtain ⟨⟨l, hl, -⟩, -⟩ := hr.lower
    intro hi
    have := (fatal_input_read lawful (Wf.of_run hl) hi).1
    rw [show (csB (early ((List.range 10000).map (· + 1) ++ [20000]))).minimal.read (env oc) cackA = _ from h1] at this
    simp at this

end Toy
end Pkstl
