import Verif.Spec.Complete
import Verif.Spec.Format
import Verif.Spec.ToyComplete
/- C70: builds with and without overflow checks, and with different cargo features. -/
namespace Pkstl
open Spec

/-! ## What is claimed -/

/-- The call panicked because of an overflow. -/
def Spec.CEvent.overflowed {M : Type} : CEvent M → Prop
  | .readBin _ r => r = .panic .overflow
  | .readSer _ _ r => r = .panic .overflow
  | .connectBin _ _ _ r => r = .panic .overflow
  | .connectSer _ _ _ _ r => r = .panic .overflow
  | .ackBin _ _ _ r => r = .panic .overflow
  | .ackSer _ _ _ _ r => r = .panic .overflow
  | .writeBin _ _ _ r => r = .panic .overflow
  | .writeSer _ _ _ _ r => r = .panic .overflow
  | .clone r => r = .panic .overflow
  | .config _ r => r = .panic .overflow

/-- The call was a `read` that met a format that the build does not know. -/
def Spec.CEvent.unknownFormat {M : Type} : CEvent M → Prop
  | .readSer _ _ r => r = .err (.recvInvalidMsg .unknownMessageFormat)
  | _ => False

/-- The build `f'` has all features of the build `f`. -/
def Spec.Features.le (f f' : Features) : Prop := ∀ fmt, Knows? f fmt → Knows? f' fmt

/-! ## One call, with and without overflow checks -/

section
variable {α β σ : Type} {cr : Crypto}

/-- The results of the two builds. -/
def Alike (x y : Res α) : Prop := x = y ∨ x = .panic .overflow
def AlikeS (x y : σ × Res α) : Prop := x = y ∨ x.2 = .panic .overflow

theorem Alike.bind {x y : Res α} {f g : α → Res β} (h : Alike x y) (hf : ∀ a, Alike (f a) (g a)) : Alike (x >>= f) (y >>= g) := by
  rcases h with rfl | rfl
  · cases x with
    | ok a => exact hf a
    | err e => exact .inl rfl
    | panic p => exact .inl rfl
  · exact .inr rfl

theorem alike_decrypt (k : SecretKey) (b : Bytes) : Alike (decrypt ⟨cr, true⟩ k b) (decrypt ⟨cr, false⟩ k b) := by
  unfold decrypt
  split
  · exact .inr rfl
  · exact .inl rfl

theorem alike_open (s : Option SecretKey) (b : Bytes) : Alike (openIncoming ⟨cr, true⟩ s b) (openIncoming ⟨cr, false⟩ s b) := by
  unfold openIncoming
  refine .bind (.inl rfl) fun a => ?_
  split
  · exact .inl rfl
  · cases s with
    | none => exact .inl rfl
    | some k => exact .bind (alike_decrypt k b) fun _ => .inl rfl

theorem addU64_alike (a b : Nat) : addU64 true a b = addU64 false a b ∨ addU64 true a b = none := by
  unfold addU64
  split
  · exact .inl rfl
  · exact .inr rfl

theorem alike_parse (e c : Bool) (d : Bytes) : Alike (parseClear ⟨cr, true⟩ e d c) (parseClear ⟨cr, false⟩ e d c) := by
  unfold parseClear
  refine .bind (.inl rfl) fun a => ?_
  split
  · exact .inl rfl
  · refine .bind (.inl rfl) fun v => ?_
    split
    · exact .inl rfl
    · refine .bind (.inl rfl) fun z => ?_
      rcases addU64_alike ENCAPSULED_MSG_BEGIN (beNat z) with h | h
      · rw [h]; exact .inl rfl
      · rw [h]; exact .inr rfl

theorem alike_reader (s : Option SecretKey) (b : Bytes) (c : Bool) :
    Alike (readerRead ⟨cr, true⟩ s b c) (readerRead ⟨cr, false⟩ s b c) := by
  unfold readerRead
  exact .bind (alike_open s b) fun _ => alike_parse _ _ _


theorem alike_advance (o : Finset Nat) (n : Nat) :
    Layer.advance true o n = Layer.advance false o n ∨ (Layer.advance true o n).2.2 = .panic .overflow := by
  induction o, n using Layer.advance.induct (overflowChecks := true) with
  | case1 o n h ha =>
    rw [Layer.advance, dif_pos h, ha]
    exact .inr rfl
  | case2 o n h m ha ih =>
    rw [Layer.advance, dif_pos h, ha, Layer.advance, dif_pos h]
    rcases addU64_alike n 1 with h1 | h1
    · rw [← h1, ha]; exact ih
    · rw [h1] at ha; simp at ha
  | case3 o n h =>
    rw [Layer.advance, dif_neg h, Layer.advance, dif_neg h]
    exact .inl rfl

theorem alike_nonces (s : Layer) (n : Nat) : AlikeS (s.updateNonces ⟨cr, true⟩ n) (s.updateNonces ⟨cr, false⟩ n) := by
  unfold Layer.updateNonces
  split
  · dsimp only
    rcases addU64_alike s.nextNonceExpected 1 with h | h
    · rw [← h]
      cases addU64 true s.nextNonceExpected 1 with
      | none => exact .inl rfl
      | some m =>
        dsimp only
        rcases alike_advance s.orphanNonces m with h | h
        · rw [h]; exact .inl rfl
        · exact .inr h
    · rw [h]; exact .inr rfl
  · exact .inl rfl

theorem alike_user (s : Layer) (d : DecryptedIncomingData) (n : Nat) :
    AlikeS (s.readUser ⟨cr, true⟩ d n) (s.readUser ⟨cr, false⟩ d n) := by
  unfold Layer.readUser
  split
  · exact .inl rfl
  · split
    · exact .inl rfl
    · exact .inl rfl
    · exact .inl rfl
    · dsimp only
      split
      · split
        · exact .inl rfl
        · rename_i st _ _ _ _ _ _ _ _
          rcases alike_nonces (cr := cr) { s with status := st } n with h | h
          · rw [h]; exact .inl rfl
          · right
            rcases hu : Layer.updateNonces ⟨cr, true⟩ { s with status := st } n with ⟨s', r⟩
            rw [hu] at h
            subst h
            rfl
      · exact .inl rfl

theorem alike_inner (s : Layer) (b : Bytes) (c : Bool) : AlikeS (s.readInner ⟨cr, true⟩ b c) (s.readInner ⟨cr, false⟩ b c) := by
  unfold Layer.readInner
  rcases alike_reader (cr := cr) s.secret b c with h | h
  · rw [← h]
    cases readerRead ⟨cr, true⟩ s.secret b c with
    | err e => exact .inl rfl
    | panic p => exact .inl rfl
    | ok d =>
      dsimp only
      split
      · exact .inl rfl
      · exact .inl rfl
      · exact alike_user _ _ _
  · rw [h]; exact .inr rfl

theorem alike_drainLoop (bs : List Bytes) (s : Layer) (ms : List Message) :
    AlikeS (s.drainLoop ⟨cr, true⟩ bs ms) (s.drainLoop ⟨cr, false⟩ bs ms) := by
  induction bs generalizing s ms with
  | nil => exact .inl rfl
  | cons b bs ih =>
    unfold Layer.drainLoop
    rcases alike_inner (cr := cr) s b false with h | h
    · rw [← h]
      rcases Layer.readInner ⟨cr, true⟩ s b false with ⟨s', _ | _ | _⟩
      · rename_i m
        cases m with
        | none => exact ih _ _
        | some m => exact ih _ _
      · exact .inl rfl
      · exact .inl rfl
    · rcases hu : Layer.readInner ⟨cr, true⟩ s b false with ⟨s', r⟩
      rw [hu] at h
      subst h
      exact .inr rfl

theorem alike_takeAck (s : Layer) : AlikeS (s.takeAck ⟨cr, true⟩) (s.takeAck ⟨cr, false⟩) := by
  unfold Layer.takeAck
  split
  · exact alike_inner _ _ _
  · exact .inl rfl

theorem alike_readBin (sl : SecureLayer) (b : Bytes) : AlikeS (sl.readBin ⟨cr, true⟩ b) (sl.readBin ⟨cr, false⟩ b) := by
  unfold SecureLayer.readBin
  rcases alike_inner (cr := cr) sl.minimal b true with h | h
  · unfold Layer.read
    rw [← h]
    rcases Layer.readInner ⟨cr, true⟩ sl.minimal b true with ⟨m, (_ | x) | _ | _⟩
    · exact .inl rfl
    · cases x with
      | connect a k d =>
        dsimp only
        split
        · exact .inl rfl
        · exact .inl rfl
        · rcases alike_takeAck (cr := cr) m with h | h
          · rw [h]; exact .inl rfl
          · rcases hu : m.takeAck ⟨cr, true⟩ with ⟨s', r⟩
            rw [hu] at h
            subst h
            exact .inr rfl
      | ack d =>
        dsimp only
        split
        · exact .inl rfl
        · exact .inl rfl
        · rcases alike_drainLoop (cr := cr) m.tmpStack { m with tmpStack := [] } [] with h | h
          · unfold Layer.drainTmpStack
            rw [h]; exact .inl rfl
          · rcases hu : m.drainTmpStack ⟨cr, true⟩ with ⟨s', r⟩
            unfold Layer.drainTmpStack at hu
            rw [hu] at h
            subst h
            exact .inr rfl
      | message d => exact .inl rfl
    · exact .inl rfl
    · exact .inl rfl
  · unfold Layer.read
    rcases hu : Layer.readInner ⟨cr, true⟩ sl.minimal b true with ⟨s', r⟩
    rw [hu] at h
    subst h
    exact .inr rfl

theorem alike_write (sl : SecureLayer) (d : Bytes) (w : BufW) :
    sl.writeBinRaw ⟨cr, true⟩ d w = sl.writeBinRaw ⟨cr, false⟩ d w ∨ (sl.writeBinRaw ⟨cr, true⟩ d w).2.2 = .panic .overflow := by
  have h : ∀ s : Layer, s.writeMessage ⟨cr, true⟩ d w = s.writeMessage ⟨cr, false⟩ d w ∨
      (s.writeMessage ⟨cr, true⟩ d w).2.2 = .panic .overflow := by
    intro s
    unfold Layer.writeMessage
    split
    · exact .inl rfl
    · exact .inl rfl
    · rename_i st _ _
      have he : ∀ s : Layer, s.encapsulateEncryptWrite ⟨cr, true⟩ d w = s.encapsulateEncryptWrite ⟨cr, false⟩ d w := fun _ => rfl
      dsimp only
      rw [he]
      rcases Layer.encapsulateEncryptWrite ⟨cr, false⟩ { s with status := st } d w with ⟨w', _ | _ | _⟩
      · dsimp only
        rcases addU64_alike s.nextNonceSent 1 with h | h
        · rw [h]; exact .inl rfl
        · rw [h]; exact .inr rfl
      · exact .inl rfl
      · exact .inl rfl
  unfold SecureLayer.writeBinRaw
  rcases h sl.minimal with h | h
  · rw [h]; exact .inl rfl
  · exact .inr h

end

variable {M : Type} {cr : Crypto} {f f' : Features} {st : CStart} {h : List (CEvent M)} {sl : SecureLayer} {env : Env}

/-- **C70, one call with and without overflow checks.** It has the same effect and the same result in both builds, or it panics
with an overflow in the one with checks. -/
theorem C70_checks (cr : Crypto) (f : Features) (sl : SecureLayer) (op : COp M) :
    cstep ⟨cr, true⟩ f sl op = cstep ⟨cr, false⟩ f sl op ∨ (cstep ⟨cr, true⟩ f sl op).2.overflowed := by
  cases op with
  | readBin b =>
    rcases alike_readBin (cr := cr) sl b with h | h
    · simp only [cstep, h, true_or]
    · exact .inr h
  | readSer c b =>
    rcases alike_readBin (cr := cr) sl b with h | h
    · simp only [cstep, SecureLayer.readSer, h, true_or]
    · right
      simp only [cstep, SecureLayer.readSer, CEvent.overflowed]
      rcases hu : sl.readBin ⟨cr, true⟩ b with ⟨s', r⟩
      rw [hu] at h
      subst h
      rfl
  | connectBin => exact .inl rfl
  | connectSer => exact .inl rfl
  | ackBin => exact .inl rfl
  | ackSer => exact .inl rfl
  | writeBin d w =>
    rcases alike_write (cr := cr) sl (sl.compress cr d) w with h | h
    · simp only [cstep, SecureLayer.writeBin, h, true_or]
    · exact .inr h
  | writeSer c x w =>
    simp only [cstep, SecureLayer.writeSer]
    cases serialize c x sl.minimal.config.messageFormat with
    | err e => exact .inl rfl
    | panic p => exact .inl rfl
    | ok b =>
      dsimp only
      rcases alike_write (cr := cr) sl (sl.compress cr b) w with h | h
      · rw [h]; exact .inl rfl
      · exact .inr h
  | clone => exact .inl rfl
  | config => exact .inl rfl

/-- **C70, from the checked build to the other one.** A history of a build with overflow checks in which no call panicked with an
overflow is a history of the build without them, with the same results and states. -/
theorem C70_checked_run (hr : CRun ⟨cr, true⟩ f st h sl) (hn : ∀ e ∈ h, ¬ e.overflowed) : CRun ⟨cr, false⟩ f st h sl := by
  induction hr with
  | init h => exact .init h
  | @call h s hr op ih =>
    have h1 := ih fun e he => hn e (List.mem_append_left _ he)
    rcases C70_checks cr f s op with h2 | h2
    · rw [h2]; exact h1.call op
    · exact absurd h2 (hn _ (by simp))
  | cloned hr hc ih => exact (ih fun e he => hn e (List.mem_append_left _ he)).cloned hc

/-- **C70, from the build without overflow checks to the checked one.** Its history is one of the checked build too, up to the
first call (if there is one) at which the checked build panics with an overflow. -/
theorem C70_unchecked_run (hr : CRun ⟨cr, false⟩ f st h sl) :
    CRun ⟨cr, true⟩ f st h sl ∨
    ∃ h1 h2 s op, h = h1 ++ (cstep ⟨cr, false⟩ f s op).2 :: h2 ∧ CRun ⟨cr, true⟩ f st h1 s ∧ CRun ⟨cr, false⟩ f st h1 s ∧
      (cstep ⟨cr, true⟩ f s op).2.overflowed := by
  induction hr with
  | init h => exact .inl (.init h)
  | @call h s hr op ih =>
    rcases ih with ih | ⟨h1, h2, s', op', rfl, a, b, c⟩
    · rcases C70_checks cr f s op with h2 | h2
      · left; rw [← h2]; exact ih.call op
      · exact .inr ⟨h, [], s, op, rfl, ih, hr, h2⟩
    · exact .inr ⟨h1, h2 ++ [(cstep ⟨cr, false⟩ f s op).2], s', op', by simp, a, b, c⟩
  | cloned hr hc ih =>
    rcases ih with ih | ⟨h1, h2, s', op', rfl, a, b, c⟩
    · exact .inl (ih.cloned hc)
    · exact .inr ⟨h1, h2 ++ [.clone (.ok ())], s', op', by simp, a, b, c⟩

/-- The toy session up to party B's negotiated layer is a history of both builds. -/
example : ∃ h : List (CEvent Unit), CRun (Toy.env true) f Toy.cstB h (Toy.csB Toy.b4) ∧ (∀ e ∈ h, ¬ e.overflowed) ∧ 3 < h.length ∧
    CRun (Toy.env false) f Toy.cstB h (Toy.csB Toy.b4) := by
  have t1 : (Toy.csB (Toy.layer0 [2] none)).readBin (Toy.env true) Toy.cconA =
      (Toy.csB Toy.b1, .ok [.connect (some [7, 8]) Toy.pkA]) := by decide +kernel
  have t4 : (Toy.csB Toy.b3).readBin (Toy.env true) Toy.cackA = (Toy.csB Toy.b4, .ok [.ack (some [])]) := by decide +kernel
  have q0 : CRun (M := Unit) (Toy.env true) f Toy.cstB [] (Toy.csB (Toy.layer0 [2] none)) := .init rfl
  have q1 := q0.call (.readBin Toy.cconA)
  simp only [cstep, t1] at q1
  have q2 := q1.call (.connectBin none Toy.sink)
  have e2 : (Toy.csB Toy.b1).writeConnectBin (Toy.env true) none Toy.sink = (Toy.csB Toy.b2,
      ((Toy.csB Toy.b1).writeConnectBin (Toy.env true) none Toy.sink).2.1, .ok ()) := by decide +kernel
  simp only [cstep] at q2
  rw [e2] at q2
  have q3 := q2.call (.ackBin none Toy.sink)
  have e3 : (Toy.csB Toy.b2).writeAckBin (Toy.env true) none Toy.sink = (Toy.csB Toy.b3,
      ((Toy.csB Toy.b2).writeAckBin (Toy.env true) none Toy.sink).2.1, .ok ()) := by decide +kernel
  simp only [cstep] at q3
  rw [e3] at q3
  have q4 := q3.call (.readBin Toy.cackA)
  simp only [cstep, t4] at q4
  refine ⟨_, q4, ?_, by simp, C70_checked_run q4 ?_⟩ <;>
  · intro e he
    simp only [List.nil_append, List.cons_append, List.mem_cons, List.not_mem_nil, or_false] at he
    rcases he with rfl | rfl | rfl | rfl <;> simp [CEvent.overflowed]

/-- A ciphertext that is shorter than its tag: both builds panic, but not in the same way. -/
example : (cstep (M := Unit) (Toy.env true) f (Toy.csB Toy.b4) (.readBin [0, 0, 0, 0, 0])).2.overflowed ∧
    (cstep (M := Unit) (Toy.env false) f (Toy.csB Toy.b4) (.readBin [0, 0, 0, 0, 0])).2 =
      .readBin [0, 0, 0, 0, 0] (.panic .sliceIndex) := ⟨rfl, rfl⟩

/-! ## Cargo features -/

theorem tryFrom_mono (hf : Features.le f f') (b : Bytes) :
    MessageFormat.tryFrom f b = MessageFormat.tryFrom f' b ∨
      MessageFormat.tryFrom f b = .err (.recvInvalidMsg .unknownMessageFormat) := by
  have h1 : f.bin = true → f'.bin = true := hf .bincode
  have h2 : f.cbor = true → f'.cbor = true := hf .cbor
  have h3 : f.json = true → f'.json = true := hf .utf8Json
  rcases f with ⟨x, y, z⟩
  rcases f' with ⟨x', y', z'⟩
  unfold MessageFormat.tryFrom
  by_cases c1 : b = [0, 0, 0, 4]
  · subst c1; cases x <;> cases x' <;> simp_all
  by_cases c2 : b = [0, 0, 0, 3]
  · subst c2; cases y <;> cases y' <;> simp_all
  by_cases c3 : b = [0, 0, 0, 2]
  · subst c3; cases z <;> cases z' <;> simp_all
  simp [c1, c2, c3]

/-- The same result, or the build with fewer features meets an unknown format. -/
def Less {α : Type} (x y : Res α) : Prop := x = y ∨ x = .err (.recvInvalidMsg .unknownMessageFormat)

theorem Less.bind {α β : Type} {x y : Res α} {f g : α → Res β} (h : Less x y) (hf : ∀ a, Less (f a) (g a)) :
    Less (x >>= f) (y >>= g) := by
  rcases h with rfl | rfl
  · cases x with
    | ok a => exact hf a
    | err e => exact .inl rfl
    | panic p => exact .inl rfl
  · exact .inr rfl

theorem less_opt (hf : Features.le f f') (c : Codec M) (d : Option Bytes) : Less (deserializeOpt f c d) (deserializeOpt f' c d) := by
  cases d with
  | none => exact .inl rfl
  | some b =>
    refine .bind ?_ fun _ => .inl rfl
    unfold deserialize
    split
    · exact .inl rfl
    · exact .bind (tryFrom_mono hf _) fun _ => .inl rfl

theorem less_msgs (hf : Features.le f f') (c : Codec M) (ms : List BinMessage) :
    Less (deserializeMsgs f c ms) (deserializeMsgs f' c ms) := by
  induction ms with
  | nil => exact .inl rfl
  | cons m ms ih =>
    refine .bind ?_ fun _ => .bind ih fun _ => .inl rfl
    cases m <;> exact .bind (less_opt hf c _) fun _ => .inl rfl

/-- **C70, one call with fewer or more features.** The layer is in the same state afterwards, whatever the features are; the
result is the same too, except that a `read` of the build with fewer features may meet a format that it does not know. -/
theorem C70_features (hf : Features.le f f') (env : Env) (sl : SecureLayer) (op : COp M) :
    (cstep env f sl op).1 = (cstep env f' sl op).1 ∧
    ((cstep env f sl op).2 = (cstep env f' sl op).2 ∨ (cstep env f sl op).2.unknownFormat) := by
  cases op with
  | readSer c b =>
    simp only [cstep, SecureLayer.readSer]
    rcases sl.readBin env b with ⟨s', ms | _ | _⟩
    · refine ⟨rfl, ?_⟩
      dsimp only
      rcases less_msgs hf c ms with h | h
      · rw [h]; exact .inl rfl
      · exact .inr h
    · exact ⟨rfl, .inl rfl⟩
    · exact ⟨rfl, .inl rfl⟩
  | _ => exact ⟨rfl, .inl rfl⟩

/-- **C70, histories and features.** A history of a build in which no `read` met an unknown format is a history of every build
with more features; without calls of `read` it is a history of every build. -/
theorem C70_features_run (hr : CRun env f st h sl) :
    (Features.le f f' → (∀ e ∈ h, ¬ e.unknownFormat) → CRun env f' st h sl) ∧
    ((∀ c b r, CEvent.readSer c b r ∉ h) → CRun env f' st h sl) := by
  constructor
  · intro hf hn
    induction hr with
    | init h => exact .init h
    | @call h s hr op ih =>
      have h1 := ih fun e he => hn e (List.mem_append_left _ he)
      obtain ⟨h2, h3 | h3⟩ := C70_features hf env s op
      · rw [h2, h3]; exact h1.call op
      · exact absurd h3 (hn _ (by simp))
    | cloned hr hc ih => exact (ih fun e he => hn e (List.mem_append_left _ he)).cloned hc
  · intro hn
    induction hr with
    | init h => exact .init h
    | @call h s hr op ih =>
      have h1 := ih fun c b r he => hn c b r (List.mem_append_left _ he)
      cases op with
      | readSer c b => exact absurd (List.mem_append_right _ (List.mem_singleton.mpr rfl)) (hn c b _)
      | readBin b => exact h1.call (.readBin b)
      | connectBin d w => exact h1.call (.connectBin d w)
      | connectSer c d w => exact h1.call (.connectSer c d w)
      | ackBin d w => exact h1.call (.ackBin d w)
      | ackSer c d w => exact h1.call (.ackSer c d w)
      | writeBin d w => exact h1.call (.writeBin d w)
      | writeSer c d w => exact h1.call (.writeSer c d w)
      | clone => exact h1.call .clone
      | config c => exact h1.call (.config c)
    | cloned hr hc ih => exact (ih fun c b r he => hn c b r (List.mem_append_left _ he)).cloned hc

/-- A value in the JSON format, for builds with and without JSON. -/
example : Features.le ⟨true, true, false⟩ ⟨true, true, true⟩ ∧
    MessageFormat.tryFrom ⟨true, true, false⟩ [0, 0, 0, 2] = .err (.recvInvalidMsg .unknownMessageFormat) ∧
    MessageFormat.tryFrom ⟨true, true, true⟩ [0, 0, 0, 2] = .ok .utf8Json := by
  refine ⟨?_, rfl, rfl⟩
  rintro (_ | _ | _ | _ | _) h <;> trivial

end Pkstl
