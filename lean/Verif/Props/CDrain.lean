import Verif.Props.DrainExact
import Verif.Props.Interop
/- C32 in complete mode: the ACK that ends the negotiation and the user messages that overtook it. -/
namespace Pkstl
open Spec

theorem unpack_all {cr : Crypto} {l : List (Nat × Bytes)} {ys : List (Option Bytes)} (acc : List BinMessage)
    (h : List.Forall₂ (fun x y => Unpacks cr x.2 (.ok y)) l ys) :
    SecureLayer.uncompressUserMsgs cr (l.map fun x => .message (present x.2)) acc = .ok (acc ++ ys.map .message) := by
  induction h generalizing acc with
  | nil => simp [SecureLayer.uncompressUserMsgs]
  | @cons x y l ys hxy hl ih =>
    rw [unpacks_iff (env := ⟨cr, true⟩)] at hxy
    simp only [List.map_cons, SecureLayer.uncompressUserMsgs]
    dsimp only at hxy
    rw [hxy]
    dsimp only
    rw [ih]
    simp

theorem uncompress_some_fails {cr : Crypto} {l : List (Nat × Bytes)} (acc : List BinMessage) {x : Nat × Bytes} (hx : x ∈ l)
    (h : Unpacks cr x.2 (.err .zipError)) :
    SecureLayer.uncompressUserMsgs cr (l.map fun x => .message (present x.2)) acc = .err .zipError := by
  induction l generalizing acc with
  | nil => simp at hx
  | cons y l ih =>
    simp only [List.map_cons, SecureLayer.uncompressUserMsgs]
    rcases List.mem_cons.mp hx with rfl | hx
    · rw [unpacks_iff (env := ⟨cr, true⟩)] at h
      dsimp only at h
      rw [h]
    · rcases hu : SecureLayer.uncompressOpt cr (present y.2) with d | e | p <;> dsimp only
      · exact ih _ hx
      all_goals
        rw [← unpacks_iff (env := ⟨cr, true⟩)] at hu
        generalize y.2 = z at hu
        cases hu
      rfl

section
variable {M : Type} {env : Env} {f : Features} {st : CStart} {h : List (CEvent M)} {b : SecureLayer}

/-- **C32, complete mode.** A layer that waits for the peer's ACK gets the user messages `l` first: `read_bin` accepts them
all.  When the ACK comes, then, if they fit and can all be unpacked, `read_bin` hands over the ACK and the messages in order
of arrival; if one of them cannot be unpacked or does not fit, `read_bin` returns an error and hands over nothing, neither the
ACK nor a message, though the ACK has been taken. -/
theorem C32_complete_partial (law : env.cr.Lawful) (hr : CRun env f st h b)
    (hs : b.minimal.status = .ongoing .connectMsgSent .ackMsgSent) (hst : b.minimal.tmpStack = []) {k : SecretKey}
    (hk : b.minimal.secret = some k) (hks : ¬ ∀ i < 4, env.cr.keystream k.key k.nonce i = 0) {l : List (Nat × Bytes)}
    (hl : ∀ x ∈ l, x.1 < 2 ^ 64 ∧ 26 + x.2.length < 2 ^ 64) (hlen : l.length < 2 ^ 64)
    {pk p sig : Bytes} {d : Option Bytes} (hkey : b.minimal.peerSigPubkey = some pk)
    (hsig : env.cr.edVerify pk (ackFrame (env.cr.sha256 (env.cr.xPublic st.random)) p) sig = true)
    (hp : 50 + p.length < 2 ^ 64) (hd : Unpacks env.cr p (.ok d)) :
    ∃ b1, CSteps (M := M) env f b (l.map fun x => .readBin (cipherOf env.cr k x.1 x.2) (.ok [])) b1 ∧
      ∃ b2 r, b1.readBin env (ackFrame (env.cr.sha256 (env.cr.xPublic st.random)) p ++ sig) = (b2, r) ∧
        (Orderly l → ∀ ys, List.Forall₂ (fun x y => Unpacks env.cr x.2 (.ok y)) l ys →
          r = .ok (.ack d :: ys.map .message)) ∧
        (Orderly l → (∃ x ∈ l, Unpacks env.cr x.2 (.err .zipError)) → r = .err .zipError) ∧
        (∀ e, Drained l (.err e) → r = .err e) ∧
        (Drained l (.err .tooManyUnorderedMsgs) ∧ b2.minimal.status = .fail ∨
          ¬ Drained l (.err .tooManyUnorderedMsgs) ∧ b2.minimal.status = .success) ∧
        (b2.minimal.drainTmpStack env).2 = .ok [] := by
  obtain ⟨-, z0, z1, -⟩ := hr.wf.fresh _ _ hs
  have hsteps : ∀ l : List (Nat × Bytes), (∀ x ∈ l, x.1 < 2 ^ 64 ∧ 26 + x.2.length < 2 ^ 64) →
      CSteps (M := M) env f b (l.map fun x => .readBin (cipherOf env.cr k x.1 x.2) (.ok []))
        { b with minimal := { b.minimal with tmpStack := l.map fun x => userPlain env.cr x.1 x.2 } } := by
    intro l hl
    induction l using List.reverseRecOn with
    | nil =>
      have : ({ b with minimal := { b.minimal with tmpStack := [] } } : SecureLayer) = b := by
        rw [← hst]
      rw [List.map_nil, List.map_nil, this]
      exact .refl _
    | append_singleton l x ih =>
      have hx := hl x (by simp)
      have h1 := (ih fun y hy => hl y (by simp [hy])).call (.readBin (cipherOf env.cr k x.1 x.2))
      have h2 := readBin_user_stack_eval (env := env) (k := k) (n := x.1) (p := x.2)
        (b := { b with minimal := { b.minimal with tmpStack := l.map fun x => userPlain env.cr x.1 x.2 } }) law hx.1 hx.2 hks
        hk hs (by unfold Layer.seen; dsimp only; rw [z0, z1]; simp)
      simp only [cstep] at h1
      rw [cipherOf_eq, h2] at h1
      rw [List.map_append, List.map_append]
      exact h1
  have hrun := hr.steps (hsteps l hl)
  have hwin := hrun.wf.win
  obtain ⟨r0, hr0⟩ := drained_total l
  rw [unpacks_iff] at hd
  have hD : Knows { b.minimal with status := .success, tmpStack := [] } [] := by
    refine ⟨by simp, fun m => ?_⟩
    simp [Layer.seen, z0, z1]
  have hdr := fun r (hr0 : Drained l r) => drainLoop_drained law (env := env)
    (s := { b.minimal with status := .success, tmpStack := [] }) rfl
    (hwin.congr rfl rfl) hD hl hlen hr0
  have huniq : ∀ r, Drained l r → r = r0 := by
    intro r hr'
    obtain ⟨s1, g1, -⟩ := hdr r hr'
    obtain ⟨s2, g2, -⟩ := hdr r0 hr0
    rw [g1] at g2
    exact congrArg Prod.snd g2
  obtain ⟨s', g1, g2, g3⟩ := hdr r0 hr0
  have hack : ∀ ms, r0 = .ok ms → SecureLayer.readBin env
      { b with minimal := { b.minimal with tmpStack := l.map fun x => userPlain env.cr x.1 x.2 } }
      (ackFrame (env.cr.sha256 (env.cr.xPublic st.random)) p ++ sig) =
      ({ b with minimal := s' }, SecureLayer.uncompressUserMsgs env.cr ms [.ack d]) := by
    rintro ms rfl
    exact readBin_ack_eval (by dsimp only; rw [hr.wf.epub]; rfl) (law.sha256_length _) hp hsig hkey hs hd g1
  refine ⟨_, hsteps l hl, ?_⟩
  cases hr0' : r0 with
  | panic q => subst hr0'; cases hr0
  | ok ms =>
    have hok := hack ms hr0'
    have hms : ms = l.map fun x => .message (present x.2) := by
      subst hr0'
      cases hr0
      rfl
    refine ⟨_, _, hok, ?_, ?_, ?_, ?_, ?_⟩
    · intro hf ys hys
      rw [hms, unpack_all _ hys]
      rfl
    · rintro hf ⟨x, hx, hx'⟩
      rw [hms, uncompress_some_fails _ hx hx']
    · intro e he
      have := huniq _ he
      rw [hr0'] at this
      cases this
    · right
      refine ⟨fun he => ?_, ?_⟩
      · have := huniq _ he
        rw [hr0'] at this
        cases this
      · rcases g3 with ⟨-, g4⟩ | ⟨g3, -⟩
        · rw [hr0'] at g4; cases g4
        · exact g3
    · unfold Layer.drainTmpStack
      dsimp only
      rw [g2, Layer.drainLoop]
  | err e =>
    have herr : SecureLayer.readBin env
        { b with minimal := { b.minimal with tmpStack := l.map fun x => userPlain env.cr x.1 x.2 } }
        (ackFrame (env.cr.sha256 (env.cr.xPublic st.random)) p ++ sig) = ({ b with minimal := s' }, .err e) := by
      rw [hr0'] at g1
      unfold SecureLayer.readBin
      rw [read_ack_eval (b := { b.minimal with tmpStack := l.map fun x => userPlain env.cr x.1 x.2 })
        (by dsimp only; rw [hr.wf.epub]; rfl) (law.sha256_length _) hp hsig hkey hs]
      dsimp only
      rw [hd]
      dsimp only
      have : (Layer.drainTmpStack env { b.minimal with
          status := .success, tmpStack := l.map fun x => userPlain env.cr x.1 x.2 }) = (s', .err e) := g1
      simp only [if_true]
      rw [this]
    have hnf : ¬ Orderly l := by
      intro hf
      have := huniq _ (.all hf)
      rw [hr0'] at this
      cases this
    refine ⟨_, _, herr, fun hf => absurd hf hnf, fun hf => absurd hf hnf, ?_, ?_, ?_⟩
    · intro e' he
      have := (huniq _ he).trans hr0'
      cases this
      rfl
    · rcases g3 with ⟨g3, g4⟩ | ⟨g3, g4⟩
      · exact .inl ⟨by rw [← g4]; exact hr0, g3⟩
      · exact .inr ⟨fun he => g4 (huniq _ he).symm, g3⟩
    · unfold Layer.drainTmpStack
      dsimp only
      rw [g2, Layer.drainLoop]

end

/-- Toy party B in complete mode: two early messages, one of which cannot be unpacked, and the ACK. -/
example (oc : Bool) : Toy.CReach Unit (Toy.env oc) ⟨true, true, true⟩ Toy.cstB (Toy.csB Toy.b3) ∧
    Toy.b3.status = .ongoing .connectMsgSent .ackMsgSent ∧ Toy.b3.tmpStack = [] ∧ Toy.b3.secret = some Toy.key ∧
    (¬ ∀ i < 4, Toy.cr.keystream Toy.key.key Toy.key.nonce i = 0) ∧ Toy.b3.peerSigPubkey = some Toy.pkA ∧
    Toy.cr.edVerify Toy.pkA (ackFrame (Toy.cr.sha256 (Toy.cr.xPublic Toy.cstB.random)) [0])
      (Toy.cr.edSign Toy.seedA (ackFrame (Toy.cr.sha256 (Toy.cr.xPublic Toy.cstB.random)) [0])) = true ∧
    Unpacks Toy.cr [0] (.ok (some [])) ∧ Orderly [(1, [0, 5]), (0, [6])] ∧
    (∃ x ∈ ([(1, [0, 5]), (0, [6])] : List (Nat × Bytes)), Unpacks Toy.cr x.2 (.err .zipError)) := by
  refine ⟨Toy.creach_b3 _ _ _, rfl, rfl, rfl, Toy.key_stream, rfl, Toy.lawful.edVerify_sign Toy.seedA _, .stream (by decide) rfl,
    ⟨by decide, fun m => ?_⟩, (0, [6]), by decide, .other (by decide) rfl⟩
  unfold overtakers
  exact (List.length_filter_le _ _).trans ((List.takeWhile_sublist _).length_le.trans (by decide))

end Pkstl
