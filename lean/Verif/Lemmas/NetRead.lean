import Verif.Lemmas.NetParty
import Verif.Lemmas.Early
/- What an honest party does with the messages of the other one. -/
namespace Pkstl
open Spec

theorem connectsIn_append (l l' : List BinMessage) : connectsIn (l ++ l') = connectsIn l ++ connectsIn l' :=
  List.filterMap_append
theorem acksIn_append (l l' : List BinMessage) : acksIn (l ++ l') = acksIn l ++ acksIn l' := List.filterMap_append
theorem usersIn_append (l l' : List BinMessage) : usersIn (l ++ l') = usersIn l ++ usersIn l' := List.filterMap_append

section
variable {env : Env} {st : Bool → CStart} {K : SecretKey} {p : Bool} {s : SecureLayer}
  {cw aw : List (Option Bytes)} {uw : List (Nat × Bytes)} {ca aa : List (Option Bytes)} {ua : List (Nat × Bytes)}
  {dl : List BinMessage}

theorem run_read {s s' : SecureLayer} {b : Bytes} {r : Res (List BinMessage)} {f : Features} {st : CStart}
    (hr : ∃ h : List (CEvent Unit), CRun env f st h s) (e : s.readBin env b = (s', r)) :
    ∃ h : List (CEvent Unit), CRun env f st h s' := by
  obtain ⟨h, hr⟩ := hr
  have := hr.call (.readBin b)
  simp only [cstep, e] at this
  exact ⟨_, this⟩

/-- The CONNECT arrives. -/
theorem Party.readConnect (law : env.cr.Lawful) (h : Party env st K p s cw aw uw [] aa ua dl) {d : Option Bytes} {b : Bytes}
    (hexp : (st p).expected = none ∨ (st p).expected = some (sigKey env st (!p)))
    (hK : sessionKey env.cr (st p).random (env.cr.xPublic (st p).random) (env.cr.xPublic (st (!p)).random) = some K)
    (hg : Good env st K (!p) (.connect d) b) :
    ∃ s' l, s.readBin env b = (s', .ok l) ∧ Party env st K p s' cw aw uw [d] aa ua (dl ++ l) := by
  have haw : aw = [] := by
    by_contra hc
    exact h.aw_ca hc rfl
  subst haw
  have hua : ua = [] := by
    by_contra hc
    exact h.ua_aw hc rfl
  have huw : uw = [] := by
    by_contra hc
    exact (h.uw_ready hc).2 rfl
  subst hua huw
  obtain ⟨c, con, rfl, rfl, hl⟩ := hg
  have hs := h.status
  simp only [List.isEmpty_nil, Bool.not_true, Bool.and_false, stat, Bool.false_eq_true, if_false] at hs
  obtain ⟨kp, hkp⟩ := Option.ne_none_iff_exists'.mp (h.wf.wait _ hs)
  obtain ⟨rfl, -, -⟩ := h.wf.kp _ hkp
  have hkey : s.minimal.peerSigPubkey = none ∨ s.minimal.peerSigPubkey = some (sigKey env st (!p)) := by
    rw [h.psk, if_pos rfl]; exact hexp
  have hst := h.stack
  have hun := uncompress_packed law c d
  have hsig : env.cr.edVerify (sigKey env st (!p)) (connectWire env.cr c (env.cr.xPublic (st (!p)).random) (st (!p)).sigSeed d)
      (env.cr.edSign (st (!p)).sigSeed (connectWire env.cr c (env.cr.xPublic (st (!p)).random) (st (!p)).sigSeed d)) = true :=
    law.edVerify_sign _ _
  by_cases hea : aa ≠ [] ∧ ackRead (st p).expected [] aa = false
  · have := h.early
    rw [if_pos hea] at this
    obtain ⟨d', b', rfl, he, c', ack, rfl, rfl, hl'⟩ := this
    have hcw : cw ≠ [] := h.aa_cw (by simp)
    have hne : (!cw.isEmpty) = true := by simpa using hcw
    rw [hea.2, hne] at hs
    simp only [Bool.false_eq_true, if_false, if_true] at hs
    have e1 := readBin_connect_early_eval (env := env) (b := s) (p := packed env.cr c d) (q := packed env.cr c' d')
      (law.xPublic_length _) (law.edPublic_length _) hl hsig hkey hs hkp hK hun he (by
        rw [h.wf.epub, Bool.not_not]; rfl) (law.sha256_length _) hl' (law.edVerify_sign _ _) (uncompress_packed law c' d')
    refine ⟨_, _, e1, ?_⟩
    have hst' := h.stack
    rw [hea.2] at hst'
    simp only [Bool.false_eq_true, if_false] at hst'
    obtain ⟨Z, z1, z2, -⟩ := hst'
    have hZ : Z = [] := by simpa using z1.symm
    subst hZ
    obtain ⟨-, n1, n2, -⟩ := h.wf.fresh _ _ hs
    exact { h with
      run := run_read h.run e1
      status := by simp [ackRead, stat]
      psk := by simp; rfl
      epk := by simp
      secret := by simp
      early := by simp [ackRead]
      stack := by simp [ackRead, z2]
      knows := fun _ => ⟨by simp, fun m => by simp [Layer.seen, n1, n2]⟩
      uw_ready := by simp
      aw_ca := by simp
      dl_connect := by rw [connectsIn_append, h.dl_connect]; simp [connectsIn]; rfl
      dl_ack := by
        rw [acksIn_append, h.dl_ack, hea.2]
        simp [acksIn, ackRead]
      dl_user := by
        rw [usersIn_append, h.dl_user, hea.2]
        simp [usersIn] }
  · have hearly := h.early
    rw [if_neg hea] at hearly
    have e1 := readBin_connect_eval (env := env) (b := s) (p := packed env.cr c d)
      (law.xPublic_length _) (law.edPublic_length _) hl hsig hkey hs hkp hK hun hearly
    refine ⟨_, _, e1, ?_⟩
    have har : ackRead (st p).expected [d] aa = ackRead (st p).expected [] aa := by
      unfold ackRead at hea ⊢
      cases aa <;> simp at hea ⊢
      exact Option.isSome_iff_ne_none.mpr hea
    exact { h with
      run := run_read h.run e1
      status := by rw [har]; simp [stat]
      psk := by simp; rfl
      epk := by simp
      secret := by simp
      early := by
        rw [if_neg (by simp; intro h; cases aa <;> simp [ackRead] at h ⊢)]
        exact hearly
      stack := by rw [har]; exact h.stack
      knows := fun hk => (h.knows (by rw [← har]; exact hk)).congr rfl rfl
      uw_ready := by simp
      aw_ca := by simp
      dl_connect := by rw [connectsIn_append, h.dl_connect]; simp [connectsIn]; rfl
      dl_ack := by
        rw [acksIn_append, h.dl_ack, har]
        simp [acksIn]
      dl_user := by
        rw [usersIn_append, h.dl_user, har]
        simp [usersIn] }

theorem uncompress_all (Z : List (Nat × Bytes × Bytes)) (acc : List BinMessage)
    (h : ∀ x ∈ Z, SecureLayer.uncompressOpt env.cr (present x.2.2) = .ok (some x.2.1)) :
    SecureLayer.uncompressUserMsgs env.cr (Z.map fun x => .message (present x.2.2)) acc =
      .ok (acc ++ Z.map fun x => .message (some x.2.1)) := by
  induction Z generalizing acc with
  | nil => simp [SecureLayer.uncompressUserMsgs]
  | cons x Z ih =>
    rw [List.map_cons, SecureLayer.uncompressUserMsgs, h x (by simp)]
    dsimp only
    rw [ih _ fun y hy => h y (by simp [hy])]
    simp

/-- The ACK arrives. -/
theorem Party.readAck (law : env.cr.Lawful) (h : Party env st K p s cw aw uw ca [] ua dl) {d : Option Bytes} {b : Bytes}
    (hexp : (st p).expected = none ∨ (st p).expected = some (sigKey env st (!p)))
    (hcw : cw ≠ []) (hnd : (ua.map Prod.fst).Nodup) (hlen : ua.length < 2 ^ 64)
    (hov : ∀ m, (overtakers (ua.map Prod.fst) m).length ≤ 10000)
    (hg : Good env st K (!p) (.ack d) b) :
    ∃ s' l, s.readBin env b = (s', .ok l) ∧ Party env st K p s' cw aw uw ca [d] ua (dl ++ l) := by
  have huw : uw = [] := by
    by_contra hc
    simpa [ackRead] using (h.uw_ready hc).1
  subst huw
  obtain ⟨c, ack, rfl, rfl, hl⟩ := hg
  rw [Bool.not_not]
  have hs := h.status
  have hne : (!cw.isEmpty) = true := by simpa using hcw
  rw [hne] at hs
  simp only [ackRead, List.isEmpty_nil, Bool.not_true, Bool.false_and, stat, Bool.false_eq_true, if_false, if_true] at hs
  have hearly := h.early
  simp only [ne_eq, not_true_eq_false, false_and, if_false] at hearly
  have hc : env.cr.sha256 (env.cr.xPublic (st p).random) = env.cr.sha256 s.minimal.ephemeralPubkey := by
    rw [h.wf.epub]; rfl
  obtain ⟨-, n1, n2, n3⟩ := h.wf.fresh _ _ hs
  have hst := h.stack
  simp only [ackRead, List.isEmpty_nil, Bool.not_true, Bool.false_and, Bool.false_eq_true, if_false] at hst
  obtain ⟨Z, z1, z2, z3⟩ := hst
  by_cases hk : ca = [] ∧ (st p).expected = none
  · obtain ⟨rfl, hk⟩ := hk
    have hpsk := h.psk
    rw [if_pos rfl, hk] at hpsk
    have e1 := readBin_ack_early_eval (env := env) (b := s) (p := packed env.cr c d)
      (sig := env.cr.edSign (st (!p)).sigSeed (ackWire env.cr c (env.cr.xPublic (st p).random) d))
      hc (law.sha256_length _) hl hpsk hearly
    refine ⟨_, _, e1, ?_⟩
    have har : ackRead (st p).expected [] [d] = false := by simp [ackRead, hk]
    have har0 : ackRead (st p).expected [] [] = false := by simp [ackRead]
    exact { h with
      run := run_read h.run e1
      status := by rw [har, ← har0]; exact h.status
      early := by
        rw [if_pos ⟨by simp, har⟩]
        exact ⟨d, _, rfl, rfl, c, _, rfl, by rw [Bool.not_not]; rfl, hl⟩
      stack := by rw [har]; exact ⟨Z, z1, z2, z3⟩
      knows := by rw [har]; simp
      uw_ready := by simp
      aa_cw := fun _ => hcw
      dl_connect := by simpa using h.dl_connect
      dl_ack := by rw [har]; simpa [har0] using h.dl_ack
      dl_user := by rw [har]; simpa [har0] using h.dl_user }
  · have hpsk : s.minimal.peerSigPubkey = some (sigKey env st (!p)) := by
      rw [h.psk]
      split
      · rcases hexp with he | he
        · exact absurd ⟨‹_›, he⟩ hk
        · exact he
      · rfl
    have har : ackRead (st p).expected ca [d] = true := by
      unfold ackRead
      cases ca with
      | cons => simp
      | nil =>
        rcases hexp with he | he
        · exact absurd ⟨rfl, he⟩ hk
        · simp [he]
    have har0 : ackRead (st p).expected ca [] = false := by simp [ackRead]
    have hsig : env.cr.edVerify (sigKey env st (!p)) (ackWire env.cr c (env.cr.xPublic (st p).random) d)
        (env.cr.edSign (st (!p)).sigSeed (ackWire env.cr c (env.cr.xPublic (st p).random) d)) = true :=
      law.edVerify_sign _ _
    have hun := uncompress_packed law c d
    by_cases haw : aw = []
    · have hua : ua = [] := by
        by_contra hc
        exact h.ua_aw hc haw
      subst haw hua
      have hZ : Z = [] := by simpa using z1.symm
      subst hZ
      have e1 := readBin_ack_nil_eval (env := env) (b := s) (p := packed env.cr c d)
        hc (law.sha256_length _) hl hsig hpsk hs hun (by simpa using z2)
      refine ⟨_, _, e1, ?_⟩
      exact { h with
        run := run_read h.run e1
        status := by
          rw [har]
          cases ca <;> simp [stat]
        early := by
          rw [if_neg (by simp [har])]
          exact hearly
        stack := by rw [har]; simpa using z2
        knows := fun _ => ⟨by simp, fun m => by simp [Layer.seen, n1, n2]⟩
        uw_ready := by simp
        aa_cw := fun _ => hcw
        dl_connect := by rw [connectsIn_append, h.dl_connect]; simp [connectsIn]
        dl_ack := by rw [acksIn_append, h.dl_ack, har, har0]; simp [acksIn]
        dl_user := by rw [usersIn_append, h.dl_user, har, har0]; simp [usersIn] }
    · have he : (!aw.isEmpty) = true := by simpa using haw
      rw [he] at hs
      simp only [if_true] at hs
      have hD : Knows { s.minimal with status := .success, tmpStack := [] } [] :=
        ⟨by simp, fun m => by simp [Layer.seen, n1, n2]⟩
      have hfst : (Z.map fun x => (x.1, x.2.2)).map Prod.fst = ua.map Prod.fst := by
        rw [z1]; simp
      obtain ⟨e', O, d1, d2, d3⟩ := drainLoop_flow law (Z.map fun x => (x.1, x.2.2)) []
        (s := { s.minimal with status := .success, tmpStack := [] }) (D := []) rfl
        (h.wf.win.congr rfl rfl) hD (by
          intro x hx
          obtain ⟨y, hy, rfl⟩ := List.mem_map.mp hx
          exact (z3 y hy).2) (by
          have := congrArg List.length z1
          simp only [List.length_map] at this
          simp only [List.length_nil, List.length_map, u64Size]
          omega)
        (by
          rw [hfst]
          exact (flow_iff [] (ua.map Prod.fst) (by simpa using hnd) (by simp)).mpr fun m _ => by simpa using hov m)
      have hdr : { s.minimal with status := (if RemoteNego.ackMsgSent = RemoteNego.ackMsgSent then Status.success
          else Status.ongoing .validAckMsgReceived .ackMsgSent) }.drainTmpStack env =
          ({ s.minimal with status := .success, tmpStack := [], nextNonceExpected := e', orphanNonces := O },
            .ok (Z.map fun x => .message (present x.2.2))) := by
        unfold Layer.drainTmpStack
        dsimp only
        rw [if_pos rfl, z2]
        simp only [List.map_map, List.nil_append] at d1
        exact d1
      have e1 := readBin_ack_eval (env := env) (b := s) (p := packed env.cr c d)
        hc (law.sha256_length _) hl hsig hpsk hs hun hdr
      rw [uncompress_all Z _ fun x hx => (z3 x hx).1] at e1
      refine ⟨_, _, e1, ?_⟩
      rw [hfst] at d3
      exact { h with
        run := run_read h.run e1
        status := by simp [har, he, stat]
        early := by
          rw [if_neg (by simp [har])]
          exact hearly
        stack := by rw [har]; rfl
        knows := fun _ => d3.congr rfl rfl
        uw_ready := by simp
        aa_cw := fun _ => hcw
        dl_connect := by
          rw [connectsIn_append, connectsIn_append, h.dl_connect]
          simp [connectsIn]
        dl_ack := by
          rw [acksIn_append, acksIn_append, h.dl_ack, har, har0]
          simp [acksIn]
        dl_user := by
          rw [usersIn_append, usersIn_append, h.dl_user, har, har0, z1]
          simp [usersIn] }

/-- A user message arrives. -/
theorem Party.readUser (law : env.cr.Lawful) (h : Party env st K p s cw aw uw ca aa ua dl) {n : Nat} {d b : Bytes}
    (hks : ¬ ∀ i < 4, env.cr.keystream K.key K.nonce i = 0) (haw : aw ≠ []) (hcw : cw ≠ [])
    (hlen : ua.length + 1 < 2 ^ 64) (hdel : Deliverable (ua.map Prod.fst) n)
    (hg : Good env st K (!p) (.user n d) b) :
    ∃ s' l, s.readBin env b = (s', .ok l) ∧ Party env st K p s' cw aw uw ca aa (ua ++ [(n, d)]) (dl ++ l) := by
  obtain ⟨z, hz, rfl, hn, hl⟩ := hg
  have hca := h.aw_ca haw
  have hsec := h.secret
  rw [if_neg hca] at hsec
  have he : (!aw.isEmpty) = true := by simpa using haw
  have hec : (!cw.isEmpty) = true := by simpa using hcw
  have hs := h.status
  rw [he, hec] at hs
  cases har : ackRead (st p).expected ca aa with
  | false =>
    rw [har] at hs
    simp only [stat, Bool.false_and, Bool.false_eq_true, if_false, if_true] at hs
    obtain ⟨-, n1, n2, -⟩ := h.wf.fresh _ _ hs
    have hst := h.stack
    rw [har] at hst
    simp only [Bool.false_eq_true, if_false] at hst
    obtain ⟨Z, z1, z2, z3⟩ := hst
    have e1 := readBin_user_stack_eval (env := env) (b := s) (n := n) (p := z) law hn hl hks hsec hs (by
      simp [Layer.seen, n1, n2])
    rw [← cipherOf_eq] at e1
    refine ⟨_, _, e1, ?_⟩
    exact { h with
      run := run_read h.run e1
      stack := by
        rw [har]
        refine ⟨Z ++ [(n, d, z)], by simp [z1], by simp [z2], ?_⟩
        intro x hx
        rcases List.mem_append.mp hx with hx | hx
        · exact z3 x hx
        · rw [List.mem_singleton.mp hx]; exact ⟨hz, hn, hl⟩
      knows := by rw [har]; simp
      ua_aw := fun _ => haw
      dl_connect := by simpa using h.dl_connect
      dl_ack := by simpa using h.dl_ack
      dl_user := by simpa [har] using h.dl_user }
  | true =>
    rw [har] at hs
    simp only [stat, Bool.and_self, if_true] at hs
    have hD := h.knows har
    obtain ⟨e', O, r1, -, r3⟩ := (read_user_window law hn hl hks hsec hs h.wf.win hD (by simpa [u64Size] using hlen)).1 hdel
    have e1 : s.readBin env (cipherOf env.cr K n z) =
        ({ s with minimal := { s.minimal with nextNonceExpected := e', orphanNonces := O } }, .ok [.message (some d)]) := by
      unfold SecureLayer.readBin
      rw [r1]
      dsimp only
      rw [hz]
    refine ⟨_, _, e1, ?_⟩
    exact { h with
      run := run_read h.run e1
      knows := fun _ => by rw [List.map_append]; exact r3.congr rfl rfl
      stack := by
        have := h.stack
        rw [har] at this ⊢
        exact this
      ua_aw := fun _ => haw
      dl_connect := by rw [connectsIn_append, h.dl_connect]; simp [connectsIn]
      dl_ack := by rw [acksIn_append, h.dl_ack]; simp [acksIn]
      dl_user := by rw [usersIn_append, h.dl_user, har]; simp [usersIn] }

end
end Pkstl
