import Verif.Props.Net
import Verif.Spec.Alike
/- C63: client and server look the same. -/
namespace Pkstl
open Spec

section
variable {env : Env} {st st' : Bool → CStart} {K : SecretKey} {p : Bool} {s s' : SecureLayer}
  {cw aw : List (Option Bytes)} {uw : List (Nat × Bytes)} {ca aa : List (Option Bytes)} {ua : List (Nat × Bytes)}
  {dl dl' : List BinMessage} {n n' : Net} {st₀ : Start}

theorem readBin_fixed (sl : SecureLayer) (hw : Wf env st₀ sl.minimal) (b : Bytes) :
    (sl.readBin env b).1.minimal.config = sl.minimal.config ∧ (sl.readBin env b).1.minimal.cloned = sl.minimal.cloned := by
  have rd : ∀ (s : Layer) b, (s.read env b).1.config = s.config ∧ (s.read env b).1.cloned = s.cloned := fun s b =>
    ⟨(readFrame env s b true).config, (readFrame env s b true).cloned⟩
  rcases readBin_state sl b with h | ⟨a, k, d, -, h⟩ | ⟨d, -, h⟩ <;> rw [h]
  · exact rd _ b
  · rcases takeAck_cases env (sl.minimal.read env b).1 with ⟨-, he⟩ | ⟨x, -, he⟩ <;> rw [he]
    · exact rd _ b
    · exact ⟨(rd _ x).1.trans (rd _ b).1, (rd _ x).2.trans (rd _ b).2⟩
  · have hw' : Wf env st₀ (sl.minimal.read env b).1 := hw.step (.read b)
    exact ⟨(drain_frame hw').config.trans (rd _ b).1, (drain_frame hw').cloned.trans (rd _ b).2⟩

theorem Spec.SameButExpected.sigSeed (h : SameButExpected st st') (p : Bool) : (st' p).sigSeed = (st p).sigSeed := by
  rw [h p]; rfl

theorem Spec.SameButExpected.random (h : SameButExpected st st') (p : Bool) : (st' p).random = (st p).random := by
  rw [h p]

theorem Spec.SameButExpected.sigKey (h : SameButExpected st st') (p : Bool) : sigKey env st' p = sigKey env st p := by
  unfold Spec.sigKey
  rw [h.sigSeed]

/-- Once the CONNECT has arrived the whole state is determined. -/
theorem Party.twin (hst : SameButExpected st st') (h : Party env st K p s cw [] uw ca aa ua dl)
    (h' : Party env st' K p s' cw [] uw ca aa ua dl') (hca : ca ≠ []) (h1 : s'.minimal.config = s.minimal.config) :
    s' = s := by
  have hua : ua = [] := by
    by_contra hc
    exact h.ua_aw hc rfl
  subst hua
  have har : ∀ e e' : Option Bytes, ackRead e ca aa = ackRead e' ca aa := by
    intro e e'
    cases ca <;> simp_all [ackRead]
  have ho : ∃ loc rem, s.minimal.status = .ongoing loc rem := by
    rw [h.status]; simp [stat]
  have hs : s'.minimal.status = s.minimal.status := by
    rw [h.status, h'.status, har]
  obtain ⟨loc, rem, ho⟩ := ho
  obtain ⟨a1, a2, a3, a4⟩ := h.wf.fresh _ _ ho
  obtain ⟨b1, b2, b3, b4⟩ := h'.wf.fresh _ _ (hs.trans ho)
  have kp : s.minimal.ephemeralKp = none := by
    by_contra hc
    obtain ⟨kp, hkp⟩ := Option.ne_none_iff_exists'.mp hc
    have := (h.wf.kp _ hkp).2.1
    rw [h.epk, if_neg hca] at this
    cases this
  have kp' : s'.minimal.ephemeralKp = none := by
    by_contra hc
    obtain ⟨kp, hkp⟩ := Option.ne_none_iff_exists'.mp hc
    have := (h'.wf.kp _ hkp).2.1
    rw [h'.epk, if_neg hca] at this
    cases this
  have early : s.minimal.ackMsgRecvTooEarly = none := by
    have := h.early
    rwa [if_neg] at this
    rintro ⟨h1, h2⟩
    cases ca <;> cases aa <;> simp_all [ackRead]
  have early' : s'.minimal.ackMsgRecvTooEarly = none := by
    have := h'.early
    rwa [if_neg] at this
    rintro ⟨h1, h2⟩
    cases ca <;> cases aa <;> simp_all [ackRead]
  have stack : s.minimal.tmpStack = [] := by
    have := h.stack
    split at this
    · exact this
    · obtain ⟨Z, z1, z2, -⟩ := this
      have : Z = [] := by simpa using z1.symm
      rw [z2, this]; rfl
  have stack' : s'.minimal.tmpStack = [] := by
    have := h'.stack
    split at this
    · exact this
    · obtain ⟨Z, z1, z2, -⟩ := this
      have : Z = [] := by simpa using z1.symm
      rw [z2, this]; rfl
  have hsec : s'.minimal.secret = s.minimal.secret := by rw [h.secret, h'.secret]
  have hepk : s'.minimal.peerEpk = s.minimal.peerEpk := by rw [h.epk, h'.epk, hst.random]
  have hpsk : s'.minimal.peerSigPubkey = s.minimal.peerSigPubkey := by
    rw [h.psk, h'.psk, if_neg hca, if_neg hca, hst.sigKey]
  have hpub : s'.minimal.ephemeralPubkey = s.minimal.ephemeralPubkey := by
    rw [h.wf.epub, h'.wf.epub]; simp [CStart.inner, hst.random]
  have hseed : s'.sigSeed = s.sigSeed := by rw [h.seed, h'.seed, hst.sigSeed]
  obtain ⟨m, seed⟩ := s
  obtain ⟨m', seed'⟩ := s'
  cases m
  cases m'
  simp_all

/-- Before anything was written the states differ only in the expected key. -/
theorem Party.twin_fresh (hst : SameButExpected st st') (h : Party env st K p s [] aw uw [] aa ua dl)
    (h' : Party env st' K p s' [] aw uw [] aa ua dl') (h1 : s'.minimal.config = s.minimal.config) :
    s' = { s with minimal := { s.minimal with peerSigPubkey := (st' p).expected } } := by
  have haw : aw = [] := by
    by_contra hc
    exact h.aw_ca hc rfl
  have haa : aa = [] := by
    by_contra hc
    exact h.aa_cw hc rfl
  subst haw haa
  have hua : ua = [] := by
    by_contra hc
    exact h.ua_aw hc rfl
  subst hua
  have hs : s.minimal.status = .ongoing .created .waitConnectMsg := by
    rw [h.status]; simp [stat, ackRead]
  have hs' : s'.minimal.status = .ongoing .created .waitConnectMsg := by
    rw [h'.status]; simp [stat, ackRead]
  obtain ⟨a1, a2, a3, a4⟩ := h.wf.fresh _ _ hs
  obtain ⟨b1, b2, b3, b4⟩ := h'.wf.fresh _ _ hs'
  obtain ⟨kp, hkp⟩ := Option.ne_none_iff_exists'.mp (h.wf.wait _ hs)
  obtain ⟨kp', hkp'⟩ := Option.ne_none_iff_exists'.mp (h'.wf.wait _ hs')
  have e1 := (h.wf.kp _ hkp).1
  have e2 := (h'.wf.kp _ hkp').1
  have early : s.minimal.ackMsgRecvTooEarly = none := by simpa using h.early
  have early' : s'.minimal.ackMsgRecvTooEarly = none := by simpa using h'.early
  have stack : s.minimal.tmpStack = [] := by simpa [ackRead] using h.stack
  have stack' : s'.minimal.tmpStack = [] := by simpa [ackRead] using h'.stack
  have hsec : s'.minimal.secret = s.minimal.secret := by rw [h.secret, h'.secret]
  have hepk : s'.minimal.peerEpk = s.minimal.peerEpk := by rw [h.epk, h'.epk]; rfl
  have hpsk : s'.minimal.peerSigPubkey = (st' p).expected := by rw [h'.psk, if_pos rfl]
  have hpub : s'.minimal.ephemeralPubkey = s.minimal.ephemeralPubkey := by
    rw [h.wf.epub, h'.wf.epub]; simp [CStart.inner, hst.random]
  have hseed : s'.sigSeed = s.sigSeed := by rw [h.seed, h'.seed, hst.sigSeed]
  have hkk : s'.minimal.ephemeralKp = s.minimal.ephemeralKp := by
    rw [hkp, hkp', e1, e2]; simp [CStart.inner, hst.random]
  clear hkp hkp' e1 e2
  obtain ⟨m, seed⟩ := s
  obtain ⟨m', seed'⟩ := s'
  cases m
  cases m'
  simp_all

theorem createConnect_pin (s : Layer) (pk : Bytes) (d : Option Bytes) (e : Option Bytes) :
    { s with peerSigPubkey := e }.createConnect env pk d =
      ({ (s.createConnect env pk d).1 with peerSigPubkey := e }, (s.createConnect env pk d).2) := by
  unfold Layer.createConnect
  dsimp only
  rcases s.status.applyAction (.create .connect) with ⟨t, x | x | x⟩
  · dsimp only
    cases (MessageRef.connect SIG_ALGO_ED25519 pk d).toBytes env.cr s.ephemeralPubkey s.peerEpk <;> rfl
  · rfl
  · rfl

theorem writeConnectBin_pin (s : SecureLayer) (d : Option Bytes) (w : BufW) (e : Option Bytes) :
    SecureLayer.writeConnectBin env { s with minimal := { s.minimal with peerSigPubkey := e } } d w =
      ({ (s.writeConnectBin env d w).1 with
          minimal := { (s.writeConnectBin env d w).1.minimal with peerSigPubkey := e } },
        (s.writeConnectBin env d w).2) := by
  obtain ⟨m, seed⟩ := s
  have hc : SecureLayer.compress env.cr { minimal := { m with peerSigPubkey := e }, sigSeed := seed } =
      SecureLayer.compress env.cr { minimal := m, sigSeed := seed } := rfl
  unfold SecureLayer.writeConnectBin
  rw [hc]
  unfold SecureLayer.writeConnectRaw
  cases seed with
  | none => rfl
  | some seed =>
    dsimp only
    rw [createConnect_pin]
    rcases m.createConnect env (env.cr.edPublic seed)
      (d.map (SecureLayer.compress env.cr { minimal := m, sigSeed := some seed })) with ⟨m, x | x | x⟩ <;> rfl

/-- What the two systems have in common, as far as it is not implied by the rest. -/
structure Alike' (n n' : Net) : Prop where
  wire : n'.wire = n.wire
  wrote : n'.wrote = n.wrote
  arrived : ∀ p, (n'.log p).map Prod.fst = (n.log p).map Prod.fst
  layer : ∀ p, connectsOf (n.arrived p) ≠ [] → n'.layer p = n.layer p
  config : ∀ p, (n'.layer p).minimal.config = (n.layer p).minimal.config
  cloned : ∀ p, (n'.layer p).minimal.cloned = (n.layer p).minimal.cloned

theorem Alike'.arr (h : Alike' n n') (p : Bool) : n'.arrived p = n.arrived p := by
  have := congrArg (List.map Flight.what) (h.arrived p)
  simpa [Net.arrived, Function.comp_def] using this

theorem Alike'.fair (h : Alike' n n') (hf : n.Fair) : n'.Fair := by
  intro p m
  rw [h.arr]
  exact hf p m

theorem Alike'.alike (h : Alike' n n') (hst : SameButExpected st st') (hi : NetInv env st K n) (hi' : NetInv env st' K n') :
    n.Alike n' where
  wire := h.wire
  wrote := h.wrote
  arrived := h.arrived
  connects p := by rw [(hi.party p).dl_connect, (hi'.party p).dl_connect, h.arr, hst.sigKey]
  users p := by
    rw [(hi.party p).dl_user, (hi'.party p).dl_user, h.arr]
    by_cases hc : connectsOf (n.arrived p) = []
    · have hu : usersOf (n.arrived p) = [] := by
        by_contra hu
        exact (hi.party p).aw_ca ((hi.party p).ua_aw hu) hc
      simp [hu]
    · have : ∀ e, ackRead e (connectsOf (n.arrived p)) (acksOf (n.arrived p)) = !(acksOf (n.arrived p)).isEmpty := by
        intro e
        have : (connectsOf (n.arrived p)).isEmpty = false := by simpa using hc
        simp [ackRead, this]
      rw [this, this]
  acks p hc := by
    rw [(hi.party p).dl_connect] at hc
    rw [(hi.party p).dl_ack, (hi'.party p).dl_ack, h.arr]
    have : ∀ e, ackRead e (connectsOf (n.arrived p)) (acksOf (n.arrived p)) = !(acksOf (n.arrived p)).isEmpty := by
      intro e
      have : (connectsOf (n.arrived p)).isEmpty = false := by simpa using hc
      simp [ackRead, this]
    rw [this, this]
  layer p hc := by
    rw [(hi.party p).dl_connect] at hc
    exact h.layer p (by simpa using hc)

/-- A writing call with the same outcome. -/
theorem Alike'.sent (h : Alike' n n') {p : Bool} {x : Sent} {w : BufW} {o o' : SecureLayer × BufW × Res Unit}
    (ho : o'.2 = o.2) (h1 : connectsOf (n.arrived p) ≠ [] → o'.1 = o.1) (h2 : o'.1.minimal.config = o.1.minimal.config)
    (h3 : o'.1.minimal.cloned = o.1.minimal.cloned) : Alike' (n.sent p x w o) (n'.sent p x w o') where
  wire := by simp [Net.sent, ho, h.wire]
  wrote := by simp [Net.sent, ho, h.wrote]
  arrived := h.arrived
  layer q hq := by
    by_cases hp : q = p
    · subst hp
      simpa [Net.sent] using h1 hq
    · simpa [Net.sent, hp] using h.layer q hq
  config q := by
    by_cases hp : q = p
    · subst hp
      simpa [Net.sent] using h2
    · simpa [Net.sent, hp] using h.config q
  cloned q := by
    by_cases hp : q = p
    · subst hp
      simpa [Net.sent] using h3
    · simpa [Net.sent, hp] using h.cloned q

theorem sent_err {x : Sent} {w : BufW} {e : Error} : n.sent p x w (n.layer p, w, .err e) = n := by
  unfold Net.sent
  simp

theorem fits_err {w : BufW} {e : Error} (hw : w.sink.script = []) : Fits w (s, w, .err e) := by
  refine ⟨hw, ?_⟩
  simp

theorem Alike'.step (law : env.cr.Lawful) (hon : Honest env st) (hon' : Honest env st') (hst : SameButExpected st st')
    (h : Alike' n n') (hr : n.Run env st) (hr' : n'.Run env st') {m : Net} (hs : n.Step env m) (hf : m.Fair) :
    ∃ m', n'.Step env m' ∧ Alike' m m' := by
  obtain ⟨K, hK, hks⟩ := session_key law hon
  have hK' : ∀ p, sessionKey env.cr (st' p).random (env.cr.xPublic (st' p).random) (env.cr.xPublic (st' (!p)).random) =
      some K := by
    intro p
    rw [hst.random, hst.random]; exact hK p
  have hfn := Fair.of_step hs hf
  have hi := NetInv.of_run law hon hK hks hr hfn
  have hi' := NetInv.of_run law hon' hK' hks hr' (h.fair hfn)
  cases hs with
  | connect p d w hfit =>
    have hp := hi.party p
    have hp' := hi'.party p
    rw [h.arr, h.wrote] at hp'
    by_cases hca : connectsOf (n.arrived p) = []
    · rcases hp.connect law d hfit.1 with ⟨hc, e, he⟩ | ⟨hc, -⟩
      · rcases hp'.connect law d hfit.1 with ⟨-, e', he'⟩ | ⟨hc', -⟩
        · rw [he, sent_err]
          refine ⟨_, .connect p d w (by rw [he']; exact fits_err hfit.1), ?_⟩
          rw [he', sent_err]
          exact h
        · exact absurd hc' hc
      · rw [hc, hca] at hp hp'
        have hl := hp.twin_fresh hst hp' (h.config p)
        have ho := writeConnectBin_pin (env := env) (n.layer p) d w (st' p).expected
        rw [← hl] at ho
        refine ⟨_, .connect p d w ?_, h.sent ?_ ?_ ?_ ?_⟩
        · rw [ho]; exact hfit
        · rw [ho]
        · exact fun hc => absurd hca hc
        · rw [ho]
        · rw [ho]
    · have hl := h.layer p hca
      exact ⟨_, .connect p d w (by rw [hl]; exact hfit), by rw [hl]; exact h.sent rfl (fun _ => rfl) rfl rfl⟩
  | ack p d w hfit =>
    have hp := hi.party p
    have hp' := hi'.party p
    rw [h.arr, h.wrote] at hp'
    by_cases hca : connectsOf (n.arrived p) = []
    · rcases hp.ack law d hfit.1 with ⟨hc, e, he⟩ | ⟨hc, -⟩
      · rcases hp'.ack law d hfit.1 with ⟨-, e', he'⟩ | ⟨hc', -⟩
        · rw [he, sent_err]
          refine ⟨_, .ack p d w (by rw [he']; exact fits_err hfit.1), ?_⟩
          rw [he', sent_err]
          exact h
        · exact absurd hca hc'
      · exact absurd hca hc
    · have hl := h.layer p hca
      exact ⟨_, .ack p d w (by rw [hl]; exact hfit), by rw [hl]; exact h.sent rfl (fun _ => rfl) rfl rfl⟩
  | user p d w hfit hcap hn hrd =>
    have hca : connectsOf (n.arrived p) ≠ [] := (hi.party p).aw_ca hrd.1
    have hl := h.layer p hca
    have hrd' : n'.ready p := by
      refine ⟨by rw [h.wrote]; exact hrd.1, ?_⟩
      rw [(h.alike hst hi hi').acks p (by rw [(hi.party p).dl_connect]; simpa using hca)]
      exact hrd.2
    have hs := Net.Step.user (n := n') p d w (by rw [hl]; exact hfit) hcap (by rw [h.wrote]; exact hn) hrd'
    refine ⟨_, hs, ?_⟩
    rw [hl, h.wrote]
    exact h.sent rfl (fun _ => rfl) rfl rfl
  | config p c =>
    refine ⟨_, .config p c, h.wire, h.wrote, h.arrived, fun q hq => ?_, fun q => ?_, fun q => ?_⟩
    · by_cases hp : q = p
      · subst hp
        simp only [Function.update_self]
        rw [h.layer q hq]
      · simpa [hp] using h.layer q hq
    · by_cases hp : q = p
      · subst hp
        have h1 := h.config q
        have h2 := h.cloned q
        simp only [Function.update_self, SecureLayer.changeConfig, Layer.changeConfig, h2]
        split <;> simp [h1]
      · simpa [hp] using h.config q
    · by_cases hp : q = p
      · subst hp
        have h2 := h.cloned q
        simp only [Function.update_self, SecureLayer.changeConfig, Layer.changeConfig, h2]
        split <;> simp [h2]
      · simpa [hp] using h.cloned q
  | deliver p x l1 l2 hx =>
    have hs' := Net.Step.deliver (env := env) (n := n') p x l1 l2 (by rw [h.wire]; exact hx)
    have harr : ∀ q, ((n'.received env p x (l1 ++ l2)).log q).map Prod.fst =
        ((n.received env p x (l1 ++ l2)).log q).map Prod.fst := by
      intro q
      by_cases hq : q = p
      · subst hq
        simpa [Net.received] using h.arrived q
      · simpa [Net.received, hq] using h.arrived q
    have harr' : ∀ q, (n'.received env p x (l1 ++ l2)).arrived q = (n.received env p x (l1 ++ l2)).arrived q := by
      intro q
      have := congrArg (List.map Flight.what) (harr q)
      simpa [Net.arrived, Function.comp_def] using this
    have hf' : (n'.received env p x (l1 ++ l2)).Fair := by
      intro q m
      rw [harr']
      exact hf q m
    have hj := NetInv.of_run law hon hK hks (hr.step (.deliver p x l1 l2 hx)) hf
    have hj' := NetInv.of_run law hon' hK' hks (hr'.step hs') hf'
    have hcfg : ∀ q, ((n'.received env p x (l1 ++ l2)).layer q).minimal.config =
        ((n.received env p x (l1 ++ l2)).layer q).minimal.config ∧
        ((n'.received env p x (l1 ++ l2)).layer q).minimal.cloned =
        ((n.received env p x (l1 ++ l2)).layer q).minimal.cloned := by
      intro q
      by_cases hq : q = p
      · subst hq
        simp only [Net.received, Function.update_self]
        rw [(readBin_fixed _ (hi.party q).wf x.bytes).1, (readBin_fixed _ (hi.party q).wf x.bytes).2,
          (readBin_fixed _ (hi'.party q).wf x.bytes).1, (readBin_fixed _ (hi'.party q).wf x.bytes).2]
        exact ⟨h.config q, h.cloned q⟩
      · simpa [Net.received, hq] using And.intro (h.config q) (h.cloned q)
    refine ⟨_, hs', ?_, h.wrote, harr, fun q hq => ?_, fun q => (hcfg q).1, fun q => (hcfg q).2⟩
    · simp [Net.received, h.wire]
    · by_cases hp : q = p
      · subst hp
        by_cases hca : connectsOf (n.arrived q) = []
        · have haw : acksOf (n.wrote q) = [] := by
            by_contra hc
            exact (hi.party q).aw_ca hc hca
          have h1 := hj.party q
          have h2 := hj'.party q
          rw [harr'] at h2
          have e1 : (n.received env q x (l1 ++ l2)).wrote = n.wrote := rfl
          have e2 : (n'.received env q x (l1 ++ l2)).wrote = n.wrote := h.wrote
          rw [e1, haw] at h1
          rw [e2, haw] at h2
          exact h1.twin hst h2 hq (hcfg q).1
        · simp only [Net.received, Function.update_self]
          rw [h.layer q hca]
      · simp only [Net.received, Net.arrived, Function.update_of_ne hp] at hq ⊢
        exact h.layer q hq

theorem Alike'.init (hst : SameButExpected st st') (h : n.Init env st) (h' : n'.Init env st') : Alike' n n' where
  wire := by funext p; rw [h.wire, h'.wire]
  wrote := by funext p; rw [h.wrote, h'.wrote]
  arrived p := by rw [h.log, h'.log]
  layer p hp := by simp [Net.arrived, h.log] at hp
  config p := by
    have h1 := h.layer p
    have h2 := h'.layer p
    rw [hst p] at h2
    cases hs : (st p).seed <;> rw [hs] at h1 h2 <;> rw [← Res.ok.inj h1, ← Res.ok.inj h2]
  cloned p := by
    have h1 := h.layer p
    have h2 := h'.layer p
    rw [hst p] at h2
    cases hs : (st p).seed <;> rw [hs] at h1 h2 <;> rw [← Res.ok.inj h1, ← Res.ok.inj h2]

/-- **C63.** Whether a party knows the other's signature key in advance (the client) or not (the server) makes no difference
that the network could see: the two systems can be run side by side, every call in one being matched by a call in the
other, such that all the time the same bytes are under way, the same was written and the same has arrived. -/
theorem C63_simulation (law : env.cr.Lawful) (hon : Honest env st) (hon' : Honest env st') (hst : SameButExpected st st') :
    ∃ R : Net → Net → Prop, (∀ n n', n.Init env st → n'.Init env st' → R n n') ∧
      (∀ n n', R n n' → n.Alike n') ∧
      ∀ n n' m, R n n' → n.Step env m → m.Fair → ∃ m', n'.Step env m' ∧ R m m' := by
  obtain ⟨K, hK, hks⟩ := session_key law hon
  have hK' : ∀ p, sessionKey env.cr (st' p).random (env.cr.xPublic (st' p).random) (env.cr.xPublic (st' (!p)).random) =
      some K := by
    intro p
    rw [hst.random, hst.random]; exact hK p
  refine ⟨fun n n' => n.Run env st ∧ n'.Run env st' ∧ n.Fair ∧ Alike' n n', fun n n' h h' => ?_, ?_, ?_⟩
  · refine ⟨.init h, .init h', fun p m => ?_, .init hst h h'⟩
    simp [Net.arrived, h.log, overtakers]
  · rintro n n' ⟨h1, h2, h3, h4⟩
    exact h4.alike hst (.of_run law hon hK hks h1 h3) (.of_run law hon' hK' hks h2 (h4.fair h3))
  · rintro n n' m ⟨h1, h2, h3, h4⟩ hs hf
    obtain ⟨m', h5, h6⟩ := h4.step law hon hon' hst h1 h2 hs hf
    exact ⟨m', h5, h1.step hs, h2.step h5, hf, h6⟩

/-- **C63.** Hence every reachable state of the one system looks like a reachable state of the other. -/
theorem C63_alike (law : env.cr.Lawful) (hon : Honest env st) (hon' : Honest env st') (hst : SameButExpected st st')
    (hr : n.Run env st) (hf : n.Fair) : ∃ n', n'.Run env st' ∧ n.Alike n' := by
  obtain ⟨R, h1, h2, h3⟩ := C63_simulation law hon hon' hst
  have : ∃ n', n'.Run env st' ∧ R n n' := by
    induction hr with
    | @init n h =>
      have hc : ∀ p, ∃ s, SecureLayer.create env.cr (st' p).config (st' p).seed (st' p).expected (some (st' p).seedRandom)
          (some (st' p).random) = .ok s := by
        intro p
        have := h.layer p
        rw [hst p]
        cases hs : (st p).seed <;> exact ⟨_, rfl⟩
      choose s hs using hc
      have hi : Net.Init env st' { n with layer := s } := ⟨hs, h.wire, h.wrote, h.log⟩
      exact ⟨_, .init hi, h1 _ _ h hi⟩
    | step hr h ih =>
      obtain ⟨n', h4, h5⟩ := ih (Fair.of_step h hf)
      obtain ⟨m', h6, h7⟩ := h3 _ _ _ h5 h hf
      exact ⟨m', h4.step h6, h7⟩
  obtain ⟨n', h4, h5⟩ := this
  exact ⟨n', h4, h2 _ _ h5⟩

end

/-! ## concrete systems -/

namespace Toy

/-- The roles of `nst` exchanged: B expects A's key. -/
def nstSwap : Bool → CStart
  | true => { nst true with expected := none }
  | false => { nst false with expected := some pkA }

theorem swap_same : SameButExpected nst nstSwap := by intro p; cases p <;> rfl

theorem honest_swap (oc : Bool) : Honest (env oc) nstSwap where
  expected := by
    intro p
    cases p
    · exact .inr rfl
    · exact .inl rfl
  agree := (honest oc).agree
  keystream := (honest oc).keystream

/-- The run of the example in `Props/Net.lean`, with user messages, looks like a run with the roles exchanged. -/
example (oc : Bool) : ∃ n', n'.Run (env oc) nstSwap ∧ (acts (env oc) net0 (sched ++ [.deliver false 0])).Alike n' ∧
    usersIn (n'.delivered false) = [some [], some [5]] ∧ (n'.layer true).minimal.status = .success := by
  have hr : (acts (env oc) net0 (sched ++ [.deliver false 0])).Run (env oc) nst :=
    acts_run (.init (init0 oc)) (by cases oc <;> decide +kernel)
  obtain ⟨n', h1, h2⟩ := C63_alike lawful (honest oc) (honest_swap oc) swap_same hr
    (fair_short (by cases oc <;> decide +kernel))
  refine ⟨n', h1, h2, ?_, ?_⟩
  · rw [h2.users]; cases oc <;> decide +kernel
  · rw [h2.layer true (by cases oc <;> decide +kernel)]; cases oc <;> decide +kernel

/-- The fresh system with the roles exchanged. -/
def netSwap0 : Net := { net0 with layer := fun p => if p then csA (layer0 [1] none) else csB (layer0 [2] (some pkA)) }

/-- The exception is necessary: an ACK that overtakes the CONNECT is handed to the client at once, to the server later. -/
example (oc : Bool) : netSwap0.Init (env oc) nstSwap ∧
    (acts (env oc) net0 (sched.take 5)).Run (env oc) nst ∧ (acts (env oc) netSwap0 (sched.take 5)).Run (env oc) nstSwap ∧
    (acts (env oc) net0 (sched.take 5)).delivered true = [.ack none] ∧
    (acts (env oc) netSwap0 (sched.take 5)).delivered true = [] ∧
    (acts (env oc) net0 (sched.take 6)).delivered true = [.ack none, .connect none pkB] ∧
    (acts (env oc) netSwap0 (sched.take 6)).delivered true = [.connect none pkB, .ack none] := by
  have hi : netSwap0.Init (env oc) nstSwap := ⟨fun p => by cases p <;> rfl, fun _ => rfl, fun _ => rfl, fun _ => rfl⟩
  refine ⟨hi, acts_run (.init (init0 oc)) ?_, acts_run (.init hi) ?_, ?_, ?_, ?_, ?_⟩ <;> cases oc <;> decide +kernel

end Toy
end Pkstl
