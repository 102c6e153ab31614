import Verif.Lemmas.FatalRead
import Verif.Props.Robust
import Verif.Props.CompleteHistory
/- C60: which inputs end a session. -/
namespace Pkstl
open Spec

section
variable {env : Env} {st : Start} {h : List Event} {s : Layer}

/-- **C60 (partial).** `read` ends a session exactly on the inputs described by `FatalInput`, for every reachable
layer that has not failed yet.  (Missing: the property itself, that only the peer can produce such inputs; it is
refuted below.) -/
theorem C60_fatal_iff_partial (law : env.cr.Lawful) (hr : Run env st h s) (hs : s.status ≠ .fail) (inc : Bytes) :
    (s.read env inc).1.status = .fail ↔ FatalInput env st s inc :=
  ⟨read_fatal_input law (Wf.of_run hr) hs, fun hi => (fatal_input_read law (Wf.of_run hr) hi).1⟩

/-- **C60 (partial).** The call that ends the session reports an error, and no later call on the layer or its
clones does anything. -/
theorem C60_final_partial (law : env.cr.Lawful) (hr : Run env st h s) {inc : Bytes}
    (hi : FatalInput env st s inc) {h' : List Event} {s' : Layer} (hs : Steps env (s.read env inc).1 h' s') :
    (∃ e, (s.read env inc).2 = .err e) ∧ s'.status = .fail ∧ ∀ ev ∈ h', Inert ev := by
  obtain ⟨h1, h2⟩ := fatal_input_read law (Wf.of_run hr) hi
  have hr' : Run env st (h ++ [.read inc (s.read env inc).2]) (s.read env inc).1 := hr.call (.read inc)
  exact ⟨h2, C09_fail_forever hr' h1 hs⟩

theorem read_status_of_parse {inc : Bytes} {e : Error} (hp : readerRead env s.secret inc true = .err e) :
    s.read env inc = ({ s with status := .fail }, .err e) := by
  unfold Layer.read Layer.readInner
  rw [hp]

/-- **C60, refutation.** Eight bytes that anybody can send, the magic value followed by another version number, end
every session, in every state and whatever the cryptography. -/
theorem C60_refuted_version (s : Layer) {v rest : Bytes} (hl : v.length = 4) (hv : v ≠ [0, 0, 0, 1]) :
    (s.read env ([0xE2, 0xC2, 0xE2, 0xD2] ++ v ++ rest)).2 = .err (.recvInvalidMsg .unsupportedVersion) ∧
    (s.read env ([0xE2, 0xC2, 0xE2, 0xD2] ++ v ++ rest)).1.status = .fail := by
  have hp : readerRead env s.secret ([0xE2, 0xC2, 0xE2, 0xD2] ++ v ++ rest) true =
      .err (.recvInvalidMsg .unsupportedVersion) := by
    rw [readerRead_clear (by simp [MAGIC_VALUE])]
    unfold parseClear
    have e1 : sliceTo ([0xE2, 0xC2, 0xE2, 0xD2] ++ v ++ rest) MAGIC_VALUE_END = .ok MAGIC_VALUE := by
      unfold sliceTo
      rw [if_pos (by simp [MAGIC_VALUE_END])]
      simp [MAGIC_VALUE_END, MAGIC_VALUE]
    have e2 : slice ([0xE2, 0xC2, 0xE2, 0xD2] ++ v ++ rest) MAGIC_VALUE_END VERSION_END = .ok v := by
      unfold slice
      rw [if_pos (by simp [MAGIC_VALUE_END, VERSION_END, hl])]
      have h8 : List.drop 4 ([0xE2, 0xC2, 0xE2, 0xD2] ++ v ++ rest) = v ++ rest := by simp
      simp only [MAGIC_VALUE_END, VERSION_END, h8]
      rw [show 8 - 4 = v.length from hl.symm, List.take_left]
    rw [e1]
    simp only [Res.bind_ok]
    rw [if_neg (by simp), e2]
    simp only [Res.bind_ok]
    rw [if_pos (show v ≠ CURRENT_VERSION from hv)]
  rw [read_status_of_parse hp]
  exact ⟨rfl, rfl⟩

/-- **C60, refutation.** On a layer with a session key, anything of at least 16 bytes that is neither clear nor
encrypted with that key ends the session; in particular a genuine message with any other tag. -/
theorem C60_refuted_junk (law : env.cr.Lawful) (hr : Run env st h s) {k : SecretKey} (hk : s.secret = some k)
    {inc : Bytes} (hl : 16 ≤ inc.length) (hm : inc.take 4 ≠ [0xE2, 0xC2, 0xE2, 0xD2])
    (hx : ∀ x, inc ≠ aeadSeal env.cr k x) : (s.read env inc).1.status = .fail :=
  (fatal_input_read law (Wf.of_run hr) (.unsealed hk hl hm hx)).1

theorem C60_refuted_tag (law : env.cr.Lawful) (hr : Run env st h s) {k : SecretKey} (hk : s.secret = some k)
    {x t : Bytes} (ht : t.length = 16) (hne : xorKeystream env.cr k x ++ t ≠ aeadSeal env.cr k x)
    (hm : (xorKeystream env.cr k x ++ t).take 4 ≠ [0xE2, 0xC2, 0xE2, 0xD2]) :
    (s.read env (xorKeystream env.cr k x ++ t)).1.status = .fail := by
  refine C60_refuted_junk law hr hk (by simp [ht]) hm ?_
  intro y hy
  have hlen := congrArg List.length hy
  rw [aeadSeal_length _ law k y] at hlen
  simp [ht] at hlen
  unfold aeadSeal at hy
  have h1 := (List.append_inj hy (by simp [hlen])).1
  have h2 := (List.append_inj hy (by simp [hlen])).2
  refine hne ?_
  unfold aeadSeal
  rw [h1, h2]

/-- **C60, refutation.** A network that delivers the peer's CONNECT a second time ends the session, however far it
has got. -/
theorem C60_refuted_connect_twice (law : env.cr.Lawful) (hr : Run env st h s) {inc epk k : Bytes}
    {d : Option Bytes} (hc : (s.read env inc).2 = .ok (some (.connect epk k d))) (ops : List Op) :
    ((ops.foldl (fun s op => (step env s op).1) (s.read env inc).1).read env inc).1.status = .fail := by
  have hr1 : Run env st (h ++ [.read inc (s.read env inc).2]) (s.read env inc).1 := hr.call (.read inc)
  have hcase := readInner_case env s inc true
  unfold Layer.read at hc
  rw [hc] at hcase
  have key : ∀ (n : Nat) (epk' k' rest : Bytes), n < 2 ^ 64 → (env.overflowChecks = true → 16 + n < 2 ^ 64) →
      epk'.length = 32 → k'.length = 32 → inc = wire n ([0, 1] ++ epk' ++ [0, 0, 0, 0] ++ k') rest →
      endOf n ≤ inc.length → env.cr.edVerify k' (inc.take (endOf n)) (inc.drop (endOf n)) = true →
      (s.read env inc).1.peerSigPubkey = some k' → (s.read env inc).1.secret ≠ none →
      ((ops.foldl (fun s op => (step env s op).1) (s.read env inc).1).read env inc).1.status = .fail := by
    intro n epk' k' rest hn hoc h1 h2 hx hl hv hpk hsec
    have hstab : ∀ (ops : List Op) (h : List Event) (s : Layer), Run env st h s → s.peerSigPubkey = some k' →
        s.secret ≠ none →
        ∃ h', Run env st h' (ops.foldl (fun s op => (step env s op).1) s) ∧
          (ops.foldl (fun s op => (step env s op).1) s).peerSigPubkey = some k' ∧
          (ops.foldl (fun s op => (step env s op).1) s).secret ≠ none := by
      intro ops
      induction ops with
      | nil => intro h s hr h1 h2; exact ⟨h, hr, h1, h2⟩
      | cons op ops ih =>
        intro h s hr h1 h2
        have hf := stepFrame (Wf.of_run hr) op
        obtain ⟨sec, hsec⟩ := Option.ne_none_iff_exists'.mp h2
        exact ih _ _ (hr.call op) (hf.psk _ h1) (by rw [hf.secret _ hsec]; simp)
    obtain ⟨h', hr', g1, g2⟩ := hstab ops _ _ hr1 hpk hsec
    have hw := Wf.of_run hr'
    refine (fatal_input_read law hw (.connect hn hoc h1 h2 hx (.inr g1) hl hv ?_)).1
    intro loc hst
    obtain ⟨kp, hkp⟩ := Option.ne_none_iff_exists'.mp (hw.wait _ hst)
    exact g2 (hw.kp _ hkp).2.2
  have clear : ∀ {d : DecryptedIncomingData}, readerRead env s.secret inc true = .ok d →
      d.msgTypeHeaders.mustBeEncrypted = false →
      inc.take 4 = MAGIC_VALUE ∧ parseClear env false inc true = .ok d := by
    intro d hp hh
    rcases readerRead_inv hp with ⟨h1, h2, -⟩ | ⟨-, k, -, -, h2⟩
    · exact ⟨h1, h2⟩
    · have := (parseClear_iff.mp h2).2.2.2.1 rfl
      rw [hh] at this; simp at this
  generalize hs1 : (s.readInner env inc true).1 = s1 at hcase
  generalize hrr : (Res.ok (some (Message.connect epk k d)) : Res (Option Message)) = r at hcase
  cases hcase with
  | @connectOk d' epk' algo k' loc kp sec hp hh hk hl hv hst hkp hsec =>
    obtain ⟨-, hp⟩ := clear hp (by rw [hh]; rfl)
    obtain ⟨n, rest, hn, hoc, hx, hok, hd, he, -⟩ := parse_wire_inv hp
    rw [hh] at hx hok
    obtain ⟨h1, rfl, h2⟩ := hok
    rw [hd, he] at hv hl
    refine key n epk' k' rest hn hoc h1 h2 hx hl hv ?_ ?_
    · unfold Layer.read; rw [hs1]
    · unfold Layer.read; rw [hs1]; simp
  | connectNoKp hp hh hk hl hv hst hkp => exact absurd hkp ((Wf.of_run hr).wait _ hst)
  | @ackOk d' c k' rem hp hh => 
    rcases getMessage_cases d' with ⟨p, hg⟩ | hg <;> rw [hg] at hrr <;> simp [hh, reported] at hrr
  | @userOk d' n s' hp hh => 
    rcases getMessage_cases d' with ⟨p, hg⟩ | hg <;> rw [hg] at hrr <;> simp [hh, reported] at hrr
  | _ => cases hrr

/-- **C60, refutation.** Likewise for the peer's ACK. -/
theorem C60_refuted_ack_twice (law : env.cr.Lawful) (hr : Run env st h s) {inc : Bytes} {d : Option Bytes}
    (hc : (s.read env inc).2 = .ok (some (.ack d))) (ops : List Op) :
    ((ops.foldl (fun s op => (step env s op).1) (s.read env inc).1).read env inc).1.status = .fail := by
  have hr1 : Run env st (h ++ [.read inc (s.read env inc).2]) (s.read env inc).1 := hr.call (.read inc)
  have hcase := readInner_case env s inc true
  have hrd : (s.readInner env inc true).2 = .ok (some (.ack d)) := hc
  rw [hrd] at hcase
  generalize hs1 : (s.readInner env inc true).1 = s1 at hcase
  generalize hrr : (Res.ok (some (Message.ack d)) : Res (Option Message)) = r at hcase
  cases hcase with
  | @ackOk d' c k' rem hp hh hch hk hl hv hst =>
    obtain ⟨hm, hp2⟩ : inc.take 4 = MAGIC_VALUE ∧ parseClear env false inc true = .ok d' := by
      rcases readerRead_inv hp with ⟨h1, h2, -⟩ | ⟨-, k, -, -, h2⟩
      · exact ⟨h1, h2⟩
      · have := (parseClear_iff.mp h2).2.2.2.1 rfl
        rw [hh] at this; simp [MsgTypeHeaders.mustBeEncrypted] at this
    have hs2 : (s.read env inc).1.peerSigPubkey = some k' := by unfold Layer.read; rw [hs1]; exact hk
    have hstab : ∀ (ops : List Op) (h : List Event) (s : Layer), Run env st h s → s.peerSigPubkey = some k' →
        ∃ h', Run env st (h ++ h') (ops.foldl (fun s op => (step env s op).1) s) ∧
          (ops.foldl (fun s op => (step env s op).1) s).peerSigPubkey = some k' := by
      intro ops
      induction ops with
      | nil => intro h s hr h1; exact ⟨[], by simpa using hr, h1⟩
      | cons op ops ih =>
        intro h s hr h1
        have hf := stepFrame (Wf.of_run hr) op
        obtain ⟨h', g1, g2⟩ := ih _ _ (hr.call op) (hf.psk _ h1)
        exact ⟨(step env s op).2 :: h', by simpa using g1, g2⟩
    obtain ⟨h', hr', g1⟩ := hstab ops _ _ hr1 hs2
    generalize ops.foldl (fun s op => (step env s op).1) (s.read env inc).1 = t at hr' g1
    have hw := Wf.of_run hr'
    have hrdt : readerRead env t.secret inc true = .ok d' := (readerRead_clear hm).trans hp2
    by_cases hex : ∃ rem, t.status = .ongoing .connectMsgSent rem
    · exfalso
      obtain ⟨rem', ht⟩ := hex
      have h2 : (t.read env inc).2 = .ok (some (.ack d)) := by
        unfold Layer.read Layer.readInner
        rw [hrdt]
        dsimp only
        rw [hh]
        dsimp only
        unfold Layer.readAck
        rw [if_neg (by rw [hw.epub, ← (Wf.of_run hr).epub]; simpa using hch), g1]
        dsimp only
        rw [verifySig_eq, if_pos hl, hv]
        simp only [ht, Status.applyAction]
        cases rem' <;> exact hrr.symm
      have hr2 := hr'.call (.read inc)
      have := (C08_once_each hr2).2.2.2.1
      simp only [deliveries, step, h2, hc, List.flatMap_append, List.flatMap_cons, List.flatMap_nil,
        List.countP_append, Event.delivers, List.append_nil, List.countP_cons, isAck] at this
      simp at this
    · obtain ⟨n, rest, hn, hoc, hx, hok, hd, he, -⟩ := parse_wire_inv hp2
      rw [hh, hch, (Wf.of_run hr).epub] at hx
      rw [hd, he] at hv hl
      exact (fatal_input_read law hw (.ack hn hoc hx g1 hl hv (fun rem hrem => hex ⟨rem, hrem⟩))).1
  | @connectOk d' epk' algo k' loc kp sec hp hh => 
    rcases getMessage_cases d' with ⟨p, hg⟩ | hg <;> rw [hg] at hrr <;> simp [hh, reported] at hrr
  | connectNoKp hp hh hk hl hv hst hkp => exact absurd hkp ((Wf.of_run hr).wait _ hst)
  | @userOk d' n s' hp hh => 
    rcases getMessage_cases d' with ⟨p, hg⟩ | hg <;> rw [hg] at hrr <;> simp [hh, reported] at hrr
  | _ => cases hrr

end

/-- **C60 (partial), complete mode.** A negotiated layer of the complete API is ended by exactly the same inputs. -/
theorem C60_complete_iff_partial {M : Type} {f : Features} {env : Env} {st : CStart} {h : List (CEvent M)}
    {sl : SecureLayer} (law : env.cr.Lawful) (hr : CRun env f st h sl) (hs : sl.minimal.status = .success)
    (inc : Bytes) :
    (sl.readBin env inc).1.minimal.status = .fail ↔ FatalInput env st.inner sl.minimal inc := by
  obtain ⟨⟨l, hl, -⟩, -⟩ := hr.lower
  have hw := Wf.of_run hl
  rw [← C60_fatal_iff_partial law hl (by rw [hs]; simp) inc]
  have key : (sl.readBin env inc).1.minimal = (sl.minimal.read env inc).1 := by
    have hcase := read_case env sl.minimal inc
    unfold SecureLayer.readBin
    rcases hrd : sl.minimal.read env inc with ⟨m, (_ | msg) | e | p⟩
    · rfl
    · have hmsg : ∃ p, msg = .message p := by
        rw [hrd] at hcase
        dsimp only at hcase
        generalize hrr : (Res.ok (some msg) : Res (Option Message)) = r at hcase
        cases hcase with
        | @userOk d n s' hp hh =>
          rcases getMessage_cases d with ⟨p, hg⟩ | hg <;> rw [hg] at hrr <;> simp [hh, reported] at hrr
          exact ⟨_, hrr⟩
        | connectOk hp hh hk hl hv hst => rw [hs] at hst; cases hst
        | connectNoKp hp hh hk hl hv hst => rw [hs] at hst; cases hst
        | ackOk hp hh hc hk hl hv hst => rw [hs] at hst; cases hst
        | _ => cases hrr
      obtain ⟨p, rfl⟩ := hmsg
      dsimp only
      rcases SecureLayer.uncompressOpt env.cr p with cd | e | p <;> rfl
    · rfl
    · rfl
  rw [key]

/-- **C60, refutation in complete mode.** The peer's CONNECT or any other `FatalInput`, in whatever state. -/
theorem C60_refuted_complete {M : Type} {f : Features} {env : Env} {st : CStart} {h : List (CEvent M)}
    {sl : SecureLayer} (law : env.cr.Lawful) (hr : CRun env f st h sl) {inc : Bytes}
    (hi : FatalInput env st.inner sl.minimal inc) {h' : List (CEvent M)} {sl' : SecureLayer}
    (hs : CSteps env f (sl.readBin env inc).1 h' sl') :
    (∃ e, (sl.readBin env inc).2 = .err e) ∧ sl'.minimal.status = .fail ∧ ∀ ev ∈ h', ev.inert := by
  obtain ⟨⟨l, hl, -⟩, -⟩ := hr.lower
  obtain ⟨h1, e, h2⟩ := fatal_input_read law (Wf.of_run hl) hi
  have hb : sl.readBin env inc = ({ sl with minimal := (sl.minimal.read env inc).1 }, .err e) := by
    unfold SecureLayer.readBin
    rcases hrd : sl.minimal.read env inc with ⟨m, r⟩
    rw [hrd] at h2
    dsimp only at h2
    rw [h2]
  have hr1 : CRun (M := M) env f st (h ++ [(cstep env f sl (.readBin inc)).2]) (sl.readBin env inc).1 := by
    have := CRun.call hr (.readBin inc)
    simp only [cstep] at this ⊢
    exact this
  refine ⟨⟨e, by rw [hb]⟩, C56_fail_forever hr1 (by rw [hb]; exact h1) hs⟩

namespace Toy

/-- The toy session is reachable and negotiated; a foreign version number, a wrong tag, the peer's CONNECT and ACK
delivered once more are fatal inputs to it. -/
example (oc : Bool) : ∃ h, Run (env oc) stB h b4 ∧ b4.status = .success ∧ b4.secret = some key ∧
    (b4.read (env oc) ([0xE2, 0xC2, 0xE2, 0xD2] ++ [0, 0, 0, 2])).1.status = .fail ∧
    (b4.read (env oc) (List.replicate 20 7)).1.status = .fail ∧
    (b4.read (env oc) (sign seedA conA)).1.status = .fail ∧
    (b4.read (env oc) (sign seedA ackA)).1.status = .fail := by
  obtain ⟨h, hr⟩ := reach_b4 oc
  exact ⟨h, hr, rfl, rfl, by cases oc <;> decide +kernel, by cases oc <;> decide +kernel,
    by cases oc <;> decide +kernel, by cases oc <;> decide +kernel⟩

example (oc : Bool) : FatalInput (env oc) stB b4 ([0xE2, 0xC2, 0xE2, 0xD2] ++ [0, 0, 0, 2]) := by
  obtain ⟨h, hr⟩ := reach_b4 oc
  exact (C60_fatal_iff_partial lawful hr (by decide) _).mp
    (by have := (C60_refuted_version (env := env oc) b4 (v := [0, 0, 0, 2]) (rest := []) rfl (by decide)).2
        simpa using this)

/-- A user message of the peer is not fatal. -/
example (oc : Bool) : ¬ FatalInput (env oc) stB b4
    (aeadSeal cr key (userFrame 0 [5] ++ cr.sha256 (userFrame 0 [5]))) := by
  obtain ⟨h, hr⟩ := reach_b4 oc
  rw [← C60_fatal_iff_partial lawful hr (by decide)]
  cases oc <;> decide +kernel

/-- B reads A's CONNECT and A's ACK a first time. -/
example (oc : Bool) : Reach (env oc) stB (layer0 [2] none) ∧ Reach (env oc) stB b3 ∧
    ((layer0 [2] none).read (env oc) (sign seedA conA)).2 = .ok (some (.connect [0, 0, 0, 0] pkA (some [7, 8]))) ∧
    (b3.read (env oc) (sign seedA ackA)).2 = .ok (some (.ack (some [9]))) :=
  ⟨⟨[], run0 oc [2] none⟩, reach_b3 oc, by cases oc <;> decide +kernel, by cases oc <;> decide +kernel⟩

/-- A genuine message with another tag. -/
example : (List.replicate 16 7 : Bytes).length = 16 ∧
    xorKeystream cr key (userFrame 0 [5]) ++ List.replicate 16 7 ≠ aeadSeal cr key (userFrame 0 [5]) ∧
    (xorKeystream cr key (userFrame 0 [5]) ++ List.replicate 16 7).take 4 ≠ [0xE2, 0xC2, 0xE2, 0xD2] :=
  ⟨rfl, by decide +kernel, by decide +kernel⟩

/-- The complete toy session is ended by twenty arbitrary bytes. -/
example (oc : Bool) (f : Features) : ∃ (h : List (CEvent Unit)), CRun (env oc) f cstB h (csB b4) ∧
    (csB b4).minimal.status = .success ∧ FatalInput (env oc) cstB.inner (csB b4).minimal (List.replicate 20 7) := by
  obtain ⟨h, hr⟩ := creach_b4 Unit f oc
  exact ⟨h, hr, rfl, (C60_complete_iff_partial lawful hr rfl _).mp (by cases oc <;> decide +kernel)⟩

end Toy
end Pkstl
