import Verif.Spec.Net
import Verif.Props.Complete
import Verif.Lemmas.CKeep
/- One honest party of the two-party system: its state as a function of what it wrote and of what has arrived. -/
namespace Pkstl
open Spec

/-- The bytes of a message written by the honest party `q`. -/
def Good (env : Env) (st : Bool → CStart) (K : SecretKey) (q : Bool) : Sent → Bytes → Prop
  | .connect d, b => ∃ c con, con = connectWire env.cr c (env.cr.xPublic (st q).random) (st q).sigSeed d ∧
      b = con ++ env.cr.edSign (st q).sigSeed con ∧ 86 + (packed env.cr c d).length < 2 ^ 64
  | .ack d, b => ∃ c ack, ack = ackWire env.cr c (env.cr.xPublic (st (!q)).random) d ∧
      b = ack ++ env.cr.edSign (st q).sigSeed ack ∧ 50 + (packed env.cr c d).length < 2 ^ 64
  | .user n d, b => ∃ z, SecureLayer.uncompressOpt env.cr (present z) = .ok (some d) ∧ b = cipherOf env.cr K n z ∧
      n < 2 ^ 64 ∧ 26 + z.length < 2 ^ 64

/-- The peer's ACK has been handed to the application. -/
def ackRead (e : Option Bytes) (ca aa : List (Option Bytes)) : Bool :=
  !aa.isEmpty && (!ca.isEmpty || e.isSome)

/-- The status of an honest party. -/
def stat (cw aw ca ar : Bool) : Status :=
  if ar && aw then .success
  else .ongoing (if ar then .validAckMsgReceived else if cw then .connectMsgSent else .created)
    (if aw then .ackMsgSent else if ca then .validConnectMsgReceived else .waitConnectMsg)

/-- Party `p` wrote `cw`, `aw`, `uw`; `ca`, `aa`, `ua` have arrived, `dl` was handed to the application. -/
structure Party (env : Env) (st : Bool → CStart) (K : SecretKey) (p : Bool) (s : SecureLayer)
    (cw aw : List (Option Bytes)) (uw : List (Nat × Bytes)) (ca aa : List (Option Bytes)) (ua : List (Nat × Bytes))
    (dl : List BinMessage) : Prop where
  run : ∃ h : List (CEvent Unit), CRun env ⟨true, true, true⟩ (st p) h s
  seed : s.sigSeed = some (st p).sigSeed
  status : s.minimal.status =
    stat (!cw.isEmpty) (!aw.isEmpty) (!ca.isEmpty) (ackRead (st p).expected ca aa)
  psk : s.minimal.peerSigPubkey = if ca = [] then (st p).expected else some (sigKey env st (!p))
  epk : s.minimal.peerEpk = if ca = [] then none else some (env.cr.xPublic (st (!p)).random)
  secret : s.minimal.secret = if ca = [] then none else some K
  early : if aa ≠ [] ∧ ackRead (st p).expected ca aa = false then
      ∃ d b, aa = [d] ∧ s.minimal.ackMsgRecvTooEarly = some b ∧ Good env st K (!p) (.ack d) b
    else s.minimal.ackMsgRecvTooEarly = none
  stack : if ackRead (st p).expected ca aa then s.minimal.tmpStack = [] else
    ∃ Z : List (Nat × Bytes × Bytes), ua = Z.map (fun x => (x.1, x.2.1)) ∧
      s.minimal.tmpStack = Z.map (fun x => userPlain env.cr x.1 x.2.2) ∧
      ∀ x ∈ Z, SecureLayer.uncompressOpt env.cr (present x.2.2) = .ok (some x.2.1) ∧ x.1 < 2 ^ 64 ∧
        26 + x.2.2.length < 2 ^ 64
  knows : ackRead (st p).expected ca aa = true → Knows s.minimal (ua.map Prod.fst)
  next : s.minimal.nextNonceSent = uw.length
  uw_ready : uw ≠ [] → ackRead (st p).expected ca aa = true ∧ aw ≠ []
  aw_ca : aw ≠ [] → ca ≠ []
  aa_cw : aa ≠ [] → cw ≠ []
  ua_aw : ua ≠ [] → aw ≠ []
  one_cw : cw.length ≤ 1
  one_aw : aw.length ≤ 1
  nums : uw.map Prod.fst = List.range uw.length
  bound : uw.length < 2 ^ 64
  dl_connect : connectsIn dl = ca.map fun d => (d, sigKey env st (!p))
  dl_ack : acksIn dl = if ackRead (st p).expected ca aa then aa else []
  dl_user : usersIn dl = if ackRead (st p).expected ca aa then ua.map fun x => some x.2 else []

section
variable {env : Env} {st : Bool → CStart} {K : SecretKey} {p : Bool} {s : SecureLayer}
  {cw aw : List (Option Bytes)} {uw : List (Nat × Bytes)} {ca aa : List (Option Bytes)} {ua : List (Nat × Bytes)}
  {dl : List BinMessage}

theorem Party.wf (h : Party env st K p s cw aw uw ca aa ua dl) : Wf env (st p).inner s.minimal := by
  obtain ⟨h, hr⟩ := h.run
  exact hr.wf

/-- A fresh layer. -/
theorem Party.init {s : SecureLayer}
    (h : SecureLayer.create env.cr (st p).config (st p).seed (st p).expected (some (st p).seedRandom)
      (some (st p).random) = .ok s) : Party env st K p s [] [] [] [] [] [] [] := by
  have hr : CRun (M := Unit) env ⟨true, true, true⟩ (st p) [] s := .init h
  have : s.sigSeed = some (st p).sigSeed ∧ s.minimal.status = .ongoing .created .waitConnectMsg ∧
      s.minimal.peerSigPubkey = (st p).expected ∧ s.minimal.peerEpk = none ∧ s.minimal.secret = none ∧
      s.minimal.ackMsgRecvTooEarly = none ∧ s.minimal.tmpStack = [] ∧ s.minimal.nextNonceSent = 0 := by
    unfold CStart.sigSeed
    cases hs : (st p).seed <;> rw [hs] at h <;> cases Res.ok.inj h <;> exact ⟨rfl, rfl, rfl, rfl, rfl, rfl, rfl, rfl⟩
  obtain ⟨h1, h2, h3, h4, h5, h6, h7, h8⟩ := this
  exact {
    run := ⟨_, hr⟩
    seed := h1
    status := by rw [h2]; rfl
    psk := by simpa using h3
    epk := by simpa using h4
    secret := by simpa using h5
    early := by simpa using h6
    stack := by simp [ackRead, h7]
    knows := by simp [ackRead]
    next := h8
    uw_ready := by simp
    aw_ca := by simp
    aa_cw := by simp
    ua_aw := by simp
    one_cw := by simp
    one_aw := by simp
    nums := by simp
    bound := by simp
    dl_connect := by simp [connectsIn]
    dl_ack := by simp [acksIn]
    dl_user := by simp [usersIn] }

/-- A call that changes nothing but status, number and configuration. -/
theorem Party.config (h : Party env st K p s cw aw uw ca aa ua dl) (c : Config) :
    Party env st K p (s.changeConfig c).1 cw aw uw ca aa ua dl := by
  obtain ⟨l, hr⟩ := h.run
  have hr' := hr.call (.config c)
  have hk : Keeps s.minimal (s.changeConfig c).1.minimal := cstep_keeps (M := Unit) (f := ⟨true, true, true⟩) hr.wf (op := .config c) rfl
  have h1 : (s.changeConfig c).1.sigSeed = s.sigSeed ∧ (s.changeConfig c).1.minimal.status = s.minimal.status ∧
      (s.changeConfig c).1.minimal.nextNonceSent = s.minimal.nextNonceSent := by
    unfold SecureLayer.changeConfig Layer.changeConfig
    dsimp only
    split <;> simp
  exact { h with
    run := ⟨_, hr'⟩
    seed := by rw [h1.1]; exact h.seed
    status := by rw [h1.2.1]; exact h.status
    psk := by rw [hk.psk]; exact h.psk
    epk := by rw [hk.epk]; exact h.epk
    secret := by rw [hk.secret]; exact h.secret
    early := by rw [hk.ack]; exact h.early
    stack := by rw [hk.stack]; exact h.stack
    knows := fun hr => (h.knows hr).congr hk.next hk.orphans
    next := by rw [h1.2.2]; exact h.next }

theorem connectWire_length (law : env.cr.Lawful) (c : Config) (rnd seed : Bytes) (d : Option Bytes) :
    (connectWire env.cr c (env.cr.xPublic rnd) seed d).length = 86 + (packed env.cr c d).length := by
  unfold connectWire packed
  simp [connectFrame, frame, law.xPublic_length, law.edPublic_length]
  omega

theorem ackWire_length (law : env.cr.Lawful) (c : Config) (epk : Bytes) (d : Option Bytes) :
    (ackWire env.cr c epk d).length = 50 + (packed env.cr c d).length := by
  unfold ackWire packed
  simp [ackFrame, frame, law.sha256_length]
  omega

/-- `write_connect_msg_bin`, at any time. -/
theorem Party.connect (law : env.cr.Lawful) (h : Party env st K p s cw aw uw ca aa ua dl) (d : Option Bytes) {w : BufW}
    (hw : w.sink.script = []) :
    (cw ≠ [] ∧ ∃ e, s.writeConnectBin env d w = (s, w, .err e)) ∨
    (cw = [] ∧ ∃ s' w' b, s.writeConnectBin env d w = (s', w', .ok ()) ∧ w'.stream = w.stream ++ b ∧ b ≠ [] ∧
      (d = none → b.length < 2 ^ 64) ∧ (b.length < 2 ^ 64 → Good env st K p (.connect d) b) ∧ Party env st K p s' [d] aw uw ca aa ua dl) := by
  by_cases hc : cw = []
  · right
    refine ⟨hc, ?_⟩
    subst hc
    have haa : aa = [] := by
      by_contra hc
      exact h.aa_cw hc rfl
    subst haa
    have hs := h.status
    simp only [ackRead, List.isEmpty_nil, Bool.not_true, Bool.false_and, stat, Bool.false_eq_true, if_false] at hs
    obtain ⟨w', h1, h2, -⟩ := writeConnectBin_good (env := env) h.seed hs d hw
    obtain ⟨l, hr⟩ := h.run
    have hr' := hr.call (.connectBin d w)
    simp only [cstep, h1] at hr'
    rw [h.wf.epub] at h2
    refine ⟨_, w', _, h1, h2, ?_, ?_, ?_, ?_⟩
    · intro hc
      have := congrArg List.length hc
      rw [List.length_append, CStart.inner, connectWire_length law] at this
      simp at this
    · rintro rfl
      rw [List.length_append, CStart.inner, connectWire_length law, law.edSign_length]
      simp [packed]
    · intro hl
      refine ⟨_, _, rfl, rfl, ?_⟩
      rw [List.length_append, CStart.inner, connectWire_length law] at hl
      omega
    · exact { h with
        run := ⟨_, hr'⟩
        status := by simp [ackRead, stat]
        knows := by simp [ackRead]
        aa_cw := by simp
        one_cw := by simp }
  · left
    refine ⟨hc, ?_⟩
    unfold SecureLayer.writeConnectBin
    rcases writeConnectRaw_cases env s (d.map (s.compress env.cr)) w with ⟨h1, -⟩ | ⟨_, -, h1, h2⟩ | ⟨_, rem, -, h1, -⟩
    · rw [h.seed] at h1; simp at h1
    · exact ⟨_, h2⟩
    · exfalso
      have hs := h.status
      rw [h1] at hs
      have : cw.isEmpty = false := by simpa using hc
      rw [this] at hs
      unfold stat at hs
      split at hs
      · simp at hs
      · generalize ackRead (st p).expected ca aa = r at hs
        cases r <;> simp at hs

/-- `write_ack_msg_bin`, at any time. -/
theorem Party.ack (law : env.cr.Lawful) (h : Party env st K p s cw aw uw ca aa ua dl) (d : Option Bytes) {w : BufW}
    (hw : w.sink.script = []) :
    ((ca = [] ∨ aw ≠ []) ∧ ∃ e, s.writeAckBin env d w = (s, w, .err e)) ∨
    (ca ≠ [] ∧ aw = [] ∧ ∃ s' w' b, s.writeAckBin env d w = (s', w', .ok ()) ∧ w'.stream = w.stream ++ b ∧ b ≠ [] ∧
      (d = none → b.length < 2 ^ 64) ∧ (b.length < 2 ^ 64 → Good env st K p (.ack d) b) ∧ Party env st K p s' cw [d] uw ca aa ua dl) := by
  by_cases hc : ca ≠ [] ∧ aw = []
  · right
    obtain ⟨hc, ha⟩ := hc
    refine ⟨hc, ha, ?_⟩
    subst ha
    have hua : ua = [] := by
      by_contra hc
      exact h.ua_aw hc rfl
    have huw : uw = [] := by
      by_contra hc
      exact (h.uw_ready hc).2 rfl
    subst hua huw
    have hs := h.status
    have he : ca.isEmpty = false := by simpa using hc
    simp only [he, List.isEmpty_nil, Bool.not_true, Bool.and_false, stat, Bool.false_eq_true, if_false,
      Bool.not_false, if_true] at hs
    have hp := h.epk
    rw [if_neg hc] at hp
    obtain ⟨w', h1, h2, -⟩ := writeAckBin_good h.wf h.seed hs hp d hw
    obtain ⟨l, hr⟩ := h.run
    have hr' := hr.call (.ackBin d w)
    simp only [cstep, h1] at hr'
    refine ⟨_, w', _, h1, h2, ?_, ?_, ?_, ?_⟩
    · intro hc
      have := congrArg List.length hc
      rw [List.length_append, ackWire_length law] at this
      simp at this
    · rintro rfl
      rw [List.length_append, ackWire_length law, law.edSign_length]
      simp [packed]
    · intro hl
      refine ⟨_, _, rfl, rfl, ?_⟩
      rw [List.length_append, ackWire_length law] at hl
      omega
    · exact { h with
        run := ⟨_, hr'⟩
        status := by
          simp only [he, stat, List.isEmpty_cons, Bool.not_false, Bool.and_true, if_true]
          generalize ackRead (st p).expected ca aa = r
          cases r <;> simp
          cases cw <;> simp
        knows := fun hk => (h.knows hk).congr rfl rfl
        uw_ready := by simp
        aw_ca := fun _ => hc
        ua_aw := by simp
        one_aw := by simp }
  · left
    have hc' : ca = [] ∨ aw ≠ [] := by tauto
    refine ⟨hc', ?_⟩
    unfold SecureLayer.writeAckBin
    rcases writeAckRaw_cases h.wf (d.map (s.compress env.cr)) w with ⟨h1, -⟩ | ⟨_, -, h1, h2⟩ | ⟨_, loc, _, -, h1, -⟩
    · rw [h.seed] at h1; simp at h1
    · exact ⟨_, h2⟩
    · exfalso
      have hs := h.status
      rw [h1] at hs
      unfold stat at hs
      split at hs
      · simp at hs
      · by_cases ha : aw = []
        · have : ca = [] := by tauto
          simp [this, ha] at hs
        · have : aw.isEmpty = false := by simpa using ha
          simp [this] at hs

/-- `write_bin` by a party that wrote its ACK and was handed the peer's. -/
theorem Party.user (law : env.cr.Lawful) (h : Party env st K p s cw aw uw ca aa ua dl) (d : Bytes) {w : BufW}
    (hw : w.sink.script = []) (hcap : 16 < w.cap) (hn : uw.length + 1 < 2 ^ 64) (ha : aw ≠ [])
    (hr : ackRead (st p).expected ca aa = true) :
    ∃ s' w' b, s.writeBin env d w = (s', w', .ok ()) ∧ w'.stream = w.stream ++ b ∧ b ≠ [] ∧
      b.length = 74 + (env.cr.deflate (levelFor s.minimal.config d) d).length ∧
      (b.length < 2 ^ 64 → Good env st K p (.user uw.length d) b) ∧
      Party env st K p s' cw aw (uw ++ [(uw.length, d)]) ca aa ua dl := by
  have hs := h.status
  have he : aw.isEmpty = false := by simpa using ha
  simp only [he, hr, stat, Bool.not_false, Bool.and_self, if_true] at hs
  have hk := h.secret
  rw [if_neg (h.aw_ca ha)] at hk
  obtain ⟨w', h1, h2, -⟩ := writeBin_good law hs hk d hw hcap (by rw [h.next]; exact hn)
  obtain ⟨l, hr'⟩ := h.run
  replace hr' := hr'.call (.writeBin d w)
  simp only [cstep, h1] at hr'
  rw [h.next] at h2
  refine ⟨_, w', _, h1, h2, ?_, ?_, ?_, ?_⟩
  · intro hc
    have := congrArg List.length hc
    simp [cipherOf, aeadSeal, xorKeystream, userFrame, frame] at this
  · simp [cipherOf, aeadSeal, xorKeystream, userFrame, frame, law.polyTag_length, law.sha256_length]
    omega
  · intro hl
    refine ⟨_, ?_, rfl, by omega, ?_⟩
    · simp [present, law.deflate_ne_nil, SecureLayer.uncompressOpt, SecureLayer.uncompress, law.inflate_deflate]
    · simp [cipherOf, aeadSeal, xorKeystream, userFrame, frame] at hl
      omega
  · exact { h with
      run := ⟨_, hr'⟩
      status := by simp [he, hr, stat, hs]
      knows := fun hk => (h.knows hk).congr rfl rfl
      next := by simp [h.next]
      uw_ready := fun _ => ⟨hr, ha⟩
      nums := by simp [h.nums, List.range_succ]
      bound := by simpa using hn }

end
end Pkstl
