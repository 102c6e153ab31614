import Verif.Spec.Progress
import Verif.Lemmas.DevPanics
import Verif.Props.CompleteHistory
import Verif.Props.InForce
import Verif.Props.Window
/- C71: which call is allowed when. -/
namespace Pkstl
open Spec

section
variable {env : Env} {st : Start} {h : List Event} {s : Layer}

/-! ## The end of a session -/

/-- Errors that the minimal mode never reports. -/
def alien : Error → Bool
  | .zipError => true
  | e => undecodable e

theorem readInner_alien (s : Layer) (inc : Bytes) (chk : Bool) {e : Error} (h : (s.readInner env inc chk).2 = .err e) :
    alien e = false := by
  have hcase := readInner_case env s inc chk
  rw [h] at hcase
  generalize (s.readInner env inc chk).1 = s1 at hcase
  generalize hre : (Res.err e : Res (Option Message)) = r at hcase
  have gm : ∀ d, Layer.getMessage d ≠ .err e := by
    intro d h
    have := getMessage_error? d
    rw [h] at this
    cases this
  cases hcase with
  | parseErr hp =>
    cases hre
    rcases readerRead_err hp with rfl | ⟨i, hi, rfl⟩
    · rfl
    · simp only [headerErrors, List.mem_cons, List.not_mem_nil, or_false] at hi
      rcases hi with rfl | rfl | rfl | rfl | rfl | rfl <;> rfl
  | connectLate hp hh hk hl hv hs he => cases hre; rw [he]; split <;> rfl
  | connectNoKp =>
    split at hre
    · exact absurd hre.symm (gm _)
    · cases hre
  | connectOk => exact absurd hre.symm (gm _)
  | ackLate hp hh hc hk hl hv hs he => cases hre; rw [he]; split <;> rfl
  | ackOk => exact absurd hre.symm (gm _)
  | userLate hp hh hn hs hs' he => cases hre; rw [he]; split <;> rfl
  | @userNonceErr d n s1 e1 hp hh hn hs hl hv hu =>
    cases hre
    obtain ⟨O', n', t, h1, -, -, -, h5⟩ := updateNonces_frame env s n
    rw [hu] at h1 h5
    obtain ⟨rfl, -⟩ := h5 _ rfl
    rfl
  | userOk => exact absurd hre.symm (gm _)
  | _ => cases hre <;> rfl

theorem drainLoop_alien (s : Layer) (bs : List Bytes) (ms : List Message) {e : Error} (h : (s.drainLoop env bs ms).2 = .err e) :
    alien e = false := by
  induction bs generalizing s ms with
  | nil => simp [Layer.drainLoop] at h
  | cons b bs ih =>
    rw [Layer.drainLoop] at h
    rcases hr : s.readInner env b false with ⟨s', (_ | m) | e' | p⟩ <;> rw [hr] at h
    · exact ih _ _ h
    · exact ih _ _ h
    · cases h
      exact readInner_alien (env := env) s b false (by rw [hr])
    · cases h

theorem takeAck_alien (s : Layer) {e : Error} (h : (s.takeAck env).2 = .err e) : alien e = false := by
  rcases takeAck_cases env s with ⟨-, he⟩ | ⟨b, hb, he⟩
  · rw [he] at h; cases h
  · rw [he] at h; exact readInner_alien _ _ _ h

theorem ne_zip_of {α : Type} {r : Res α} (h : ∀ {e}, r = .err e → alien e = false) : r ≠ .err .zipError :=
  fun he => by cases h he

theorem readInner_ne_zip (s : Layer) (inc : Bytes) (chk : Bool) : (s.readInner env inc chk).2 ≠ .err .zipError :=
  ne_zip_of (readInner_alien s inc chk)

theorem drainLoop_ne_zip (s : Layer) (bs : List Bytes) (ms : List Message) : (s.drainLoop env bs ms).2 ≠ .err .zipError :=
  ne_zip_of (drainLoop_alien s bs ms)

theorem takeAck_ne_zip (s : Layer) : (s.takeAck env).2 ≠ .err .zipError := ne_zip_of (takeAck_alien s)

/-- The call ends the session. -/
theorem final_ends {α : Type} {r : Res α} {a b : Status} (hf : Final r.error? a b) (hz : r ≠ .err .zipError) :
    b = .fail ↔ a = .fail ∨ ∃ e, r = .err e ∧ nonFatal e = false := by
  rcases r with x | e | p
  · have := hf.sound (by simp [Res.error?])
    simp [this]
  · have hz : e ≠ .zipError := fun h => hz (h ▸ rfl)
    have hb : nonFatalBin e = nonFatal e := by cases e <;> first | rfl | exact absurd rfl hz
    cases hn : nonFatal e with
    | false => simp [hf.fatal e rfl (hb.trans hn), hn]
    | true =>
      have := hf.sound (by intro e' he; cases he; exact hb.trans hn)
      simp [this, hn]
  · have := hf.sound (by simp [Res.error?])
    simp [this]

theorem step_ends (s : Layer) (op : Op) :
    (step env s op).1.status = .fail ↔ s.status = .fail ∨ (step env s op).2.ends = true := by
  have conv : ∀ {α : Type} {r : Res α} {a b : Status} {x : Bool}, Final r.error? a b → r ≠ .err .zipError →
      (x = true ↔ ∃ e, r = .err e ∧ nonFatal e = false) → (b = .fail ↔ a = .fail ∨ x = true) :=
    fun h1 h2 h3 => by rw [final_ends h1 h2, h3]
  cases op with
  | read b =>
    refine conv (readInner_final (env := env) s b true) (readInner_ne_zip _ _ _) ?_
    simp only [step]
    show Event.ends (.read b (s.readInner env b true).2) = true ↔ _
    rcases (s.readInner env b true).2 with x | e | p <;> simp [Event.ends]
  | takeAck =>
    refine conv (takeAck_final (env := env) s) (takeAck_ne_zip _) ?_
    simp only [step]
    rcases (s.takeAck env).2 with x | e | p <;> simp [Event.ends]
  | drain =>
    refine conv (drainLoop_final (env := env) { s with tmpStack := [] } s.tmpStack []) (drainLoop_ne_zip _ _ _) ?_
    show Event.ends (.drain (Layer.drainLoop env { s with tmpStack := [] } s.tmpStack []).2) = true ↔ _
    rcases (Layer.drainLoop env { s with tmpStack := [] } s.tmpStack []).2 with x | e | p <;> simp [Event.ends]
  | connect pk d =>
    simp only [step, Event.ends]
    rcases createConnect_cases env s pk d with ⟨rem, hs, he⟩ | ⟨-, he⟩ <;> rw [he]
    · simp [hs]
    · simp
  | ack d =>
    simp only [step, Event.ends]
    rcases createAck_cases env s d with ⟨loc, hs, he⟩ | ⟨-, he⟩ <;> rw [he]
    · dsimp only
      rw [hs]
      split <;> simp
    · simp
  | write d w =>
    simp only [step]
    rcases writeMessage_cases env s d w with ⟨hs, he⟩ | ⟨_, _, hs, he⟩ | ⟨hs, -, he⟩ |
      ⟨hs, k, -, ⟨w', e, -, he⟩ | ⟨w', -, ⟨n, -, he⟩ | ⟨-, he⟩⟩⟩ <;> rw [he] <;> simp [hs, Event.ends]
  | clone =>
    simp only [step, Event.ends, Layer.tryClone]
    split <;> simp
  | config c =>
    simp only [step, Event.ends, Layer.changeConfig]
    split <;> simp

theorem ended_snoc (h : List Event) (e : Event) : ended (h ++ [e]) = (ended h || e.ends) := by simp [ended]

/-- The session is over exactly if some call said so. -/
theorem ended_iff (hr : Run env st h s) : s.status = .fail ↔ ended h = true := by
  induction hr with
  | init h =>
    simp only [Layer.create, EphemeralKeyPair.generate, Res.bind_ok, Res.ok.injEq] at h
    subst h
    simp [ended, Status.init]
  | call hr op ih => rw [step_ends, ended_snoc, ih]; simp
  | @cloned h s c hr hc ih =>
    obtain ⟨hs, rfl⟩ := tryClone_ok hc
    rw [hs] at ih
    rw [ended_snoc]
    simp only [reduceCtorEq, false_iff, Bool.not_eq_true] at ih
    simp [ih, Event.ends, hs]

/-! ## The progress of the negotiation -/

/-- The negotiation status that belongs to a progress. -/
def Spec.Progress.status (p : Progress) : Status :=
  if p.complete then .success
  else .ongoing (if p.confirmed then .validAckMsgReceived else if p.sent then .connectMsgSent else .created)
    (if p.answered then .ackMsgSent else if p.heard then .validConnectMsgReceived else .waitConnectMsg)

/-- The steps are done in the right order. -/
def Spec.Progress.sane (p : Progress) : Prop := (p.confirmed = true → p.sent = true) ∧ (p.answered = true → p.heard = true)

def Spec.Progress.add (p : Progress) (e : Event) : Progress :=
  ⟨p.sent || e.createsConnect, p.heard || e.delivers.any isConnect, p.answered || e.createsAck,
    p.confirmed || e.delivers.any isAck⟩

theorem progress_snoc (h : List Event) (e : Event) : Progress.of (h ++ [e]) = (Progress.of h).add e := by
  simp [Progress.of, Progress.add, deliveries]

theorem effect_progress {cr : Crypto} {p : Progress} {e : Event} {b : Status} (hs : p.sane) (hh : e.hides → p.complete = true)
    (he : Effect cr p.status e b) : b = .fail ∨ (b = (p.add e).status ∧ (p.add e).sane) := by
  generalize ha : p.status = a at he
  cases he with
  | quiet h h1 h2 h3 =>
    rcases h with rfl | rfl
    · right
      have : p.add e = p := by
        have g1 : e.delivers.any isConnect = false := by
          rw [List.any_eq_false]
          intro m hm
          obtain ⟨d, rfl, -⟩ := h3 m hm
          simp [isConnect]
        have g2 : e.delivers.any isAck = false := by
          rw [List.any_eq_false]
          intro m hm
          obtain ⟨d, rfl, -⟩ := h3 m hm
          simp [isAck]
        simp [Progress.add, h1, h2, g1, g2]
      rw [this]
      exact ⟨ha.symm, hs⟩
    · exact .inl rfl
  | createsConnect =>
    right
    rcases p with ⟨_ | _, _ | _, _ | _, _ | _⟩ <;>
      simp_all [Progress.status, Progress.complete, Progress.add, Progress.sane, Event.createsConnect, Event.createsAck,
        Event.delivers]
  | createsAck =>
    right
    rcases p with ⟨_ | _, _ | _, _ | _, _ | _⟩ <;>
      simp_all [Progress.status, Progress.complete, Progress.add, Progress.sane, Event.createsConnect, Event.createsAck,
        Event.delivers] <;> (subst ha; simp)
  | acceptsConnect h h3 h4 =>
    right
    have hn : ¬ e.hides := by
      intro hd
      rw [Progress.status, hh hd] at ha
      simp at ha
    have hd : e.createsConnect = false ∧ e.createsAck = false ∧ e.delivers.any isConnect = true ∧ e.delivers.any isAck = false := by
      cases e with
      | read inc r =>
        obtain ⟨-, ⟨a, k, d, rfl⟩ | rfl | rfl⟩ := h
        · simp [Event.createsConnect, Event.createsAck, Event.delivers, isConnect, isAck]
        · exact absurd (.inr rfl) hn
        · exact absurd (.inl trivial) hn
      | _ => exact absurd h id
    obtain ⟨d1, d2, d3, d4⟩ := hd
    rcases p with ⟨_ | _, _ | _, _ | _, _ | _⟩ <;>
      simp_all [Progress.status, Progress.complete, Progress.add, Progress.sane]
  | acceptsAck h h3 h4 =>
    right
    have hn : ¬ e.hides := by
      intro hd
      rw [Progress.status, hh hd] at ha
      simp at ha
    have hd : e.createsConnect = false ∧ e.createsAck = false ∧ e.delivers.any isAck = true ∧ e.delivers.any isConnect = false := by
      cases e with
      | read inc r =>
        obtain ⟨-, ⟨d, rfl⟩ | rfl⟩ := h
        · simp [Event.createsConnect, Event.createsAck, Event.delivers, isConnect, isAck]
        · exact absurd (.inl trivial) hn
      | takeAck r =>
        obtain ⟨d, rfl⟩ | rfl := h
        · simp [Event.createsConnect, Event.createsAck, Event.delivers, isConnect, isAck]
        · exact absurd (.inl trivial) hn
      | _ => exact absurd h id
    obtain ⟨d1, d2, d3, d4⟩ := hd
    rcases p with ⟨_ | _, _ | _, _ | _, _ | _⟩ <;>
      simp_all [Progress.status, Progress.complete, Progress.add, Progress.sane] <;> (subst ha; simp; try exact d4)

theorem smooth_snoc {e : Event} (hs : Smooth (h ++ [e])) : Smooth h ∧ (e.hides → (Progress.of h).complete = true) :=
  ⟨fun h1 x h2 hh => hs h1 x (h2 ++ [e]) (by simp [hh]), hs h e [] rfl⟩

/-- As long as no negotiation message gets lost, the application knows the status of the layer. -/
theorem status_of_progress (hr : Run env st h s) (hs : Smooth h) :
    s.status = .fail ∨ (s.status = (Progress.of h).status ∧ (Progress.of h).sane) := by
  induction hr with
  | init h =>
    simp only [Layer.create, EphemeralKeyPair.generate, Res.bind_ok, Res.ok.injEq] at h
    subst h
    right
    exact ⟨rfl, by simp [Progress.sane, Progress.of, deliveries]⟩
  | @call h s hr op ih =>
    obtain ⟨h1, h2⟩ := smooth_snoc hs
    rcases ih h1 with h3 | ⟨h3, h4⟩
    · left; rw [step_ends]; exact .inl h3
    · have := step_effect (Wf.of_run hr) op
      rw [h3] at this
      rw [progress_snoc]
      exact effect_progress h4 h2 this
  | @cloned h s c hr hc ih =>
    obtain ⟨h1, -⟩ := smooth_snoc hs
    obtain ⟨hs', rfl⟩ := tryClone_ok hc
    have : (Progress.of h).add (.clone (.ok ())) = Progress.of h := by
      simp [Progress.add, Event.createsConnect, Event.createsAck, Event.delivers]
    rw [progress_snoc, this]
    exact ih h1

/-! ## The answers in minimal mode -/

/-- A layer has been cloned (or is a clone) exactly if `try_clone` succeeded. -/
theorem cloned_iff (hr : Run env st h s) : s.cloned = h.any Event.clones := by
  induction hr with
  | init h =>
    simp only [Layer.create, EphemeralKeyPair.generate, Res.bind_ok, Res.ok.injEq] at h
    subst h
    rfl
  | @call h s hr op ih =>
    rw [List.any_append, ← ih]
    by_cases ho : op = .clone
    · subst ho
      simp only [step, Layer.tryClone]
      split <;> simp [unitRes, Event.clones]
    · rw [(step_conf (Wf.of_run hr) op).2.2 ho]
      have : (step env s op).2.clones = false := by cases op <;> first | rfl | exact absurd rfl ho
      simp [this]
  | @cloned h s c hr hc ih =>
    obtain ⟨-, rfl⟩ := tryClone_ok hc
    simp [Event.clones]

/-- **C71, CONNECT in minimal mode.** `create_connect_message` succeeds exactly once, as long as the session is not over. -/
theorem C71_connect (hr : Run env st h s) (pk : Bytes) (d : Option Bytes) :
    unitRes (s.createConnect env pk d).2 = connectAnswer (Progress.of h) (ended h) := by
  have hn := Nego.of_run hr
  have he := ended_iff hr
  unfold connectAnswer
  rcases createConnect_cases env s pk d with ⟨rem, hs, hc⟩ | ⟨hs, hc⟩
  · have h0 : (Progress.of h).sent = false := by
      have := hn.cc0 rem hs
      rw [List.countP_eq_zero] at this
      exact List.any_eq_false.mpr fun x hx => this x hx
    have h1 : ended h = false := by
      rw [hs] at he
      simpa using he
    rw [hc, h0, h1]
    rfl
  · rw [hc]
    by_cases hf : s.status = .fail
    · rw [if_pos hf, he.mp hf]; rfl
    · have h1 : ended h = false := by rw [he] at hf; simpa using hf
      have h2 : (Progress.of h).sent = true := by
        refine List.any_eq_true.mpr (hn.ecc ?_)
        cases h3 : s.status with
        | fail => exact absurd h3 hf
        | success => exact .inr rfl
        | ongoing loc rem => exact .inl ⟨loc, rem, rfl, fun hl => hs rem (hl ▸ h3)⟩
      rw [if_neg hf, h1, h2]
      rfl

/-- **C71, ACK in minimal mode.** `create_ack_message` succeeds exactly once, from the moment at which the peer's CONNECT
has been handed over. -/
theorem C71_ack (hr : Run env st h s) (hs : Smooth h) (d : Option Bytes) :
    unitRes (s.createAck env d).2 = ackAnswer (Progress.of h) (ended h) := by
  have he := ended_iff hr
  unfold ackAnswer
  rcases createAck_cases env s d with ⟨loc, hc, ha⟩ | ⟨hc, ha⟩
  · have hp := ((Wf.of_run hr).past loc _ hc (by simp)).1
    obtain ⟨epk, hp⟩ := Option.ne_none_iff_exists'.mp hp
    have h1 : ended h = false := by rw [hc] at he; simpa using he
    rcases status_of_progress hr hs with h2 | ⟨h2, h3⟩
    · rw [hc] at h2; cases h2
    · rw [ha, hp, h1]
      rw [hc] at h2
      generalize Progress.of h = p at h2 h3 ⊢
      rcases p with ⟨_ | _, _ | _, _ | _, _ | _⟩ <;>
        simp_all [Progress.status, Progress.complete, Progress.sane, unitRes]
  · rw [ha]
    by_cases hf : s.status = .fail
    · rw [if_pos hf, he.mp hf]; rfl
    · have h1 : ended h = false := by rw [he] at hf; simpa using hf
      rcases status_of_progress hr hs with h2 | ⟨h2, h3⟩
      · exact absurd h2 hf
      · rw [if_neg hf, h1]
        rw [h2] at hc
        generalize Progress.of h = p at hc h3 ⊢
        rcases p with ⟨_ | _, _ | _, _ | _, _ | _⟩ <;>
          simp_all [Progress.status, Progress.complete, Progress.sane, unitRes]

theorem success_iff (hr : Run env st h s) (hs : Smooth h) :
    s.status = .success ↔ ended h = false ∧ (Progress.of h).complete = true := by
  have he := ended_iff hr
  rcases status_of_progress hr hs with h2 | ⟨h2, -⟩
  · simp [h2, he.mp h2]
  · have h1 : s.status ≠ .fail := by rw [h2, Progress.status]; split <;> simp
    have h1 : ended h = false := by rw [ne_eq, he] at h1; simpa using h1
    rw [h2, h1, Progress.status]
    split <;> simp_all

/-- A layer that is negotiated as far as the application can tell has a secret. -/
theorem secret_of_success (hr : Run env st h s) (hs : Smooth h) (hn : s.secret = none) : s.status ≠ .success := by
  induction hl : h.length using Nat.strongRecOn generalizing h s with
  | _ n ih =>
  intro h1
  rcases NoSecret.of_run hr hn with ⟨loc, h4⟩ | h4 | ⟨inc, h4⟩
  · rw [h1] at h4; cases h4
  · rw [h1] at h4; cases h4
  · obtain ⟨l1, l2, rfl⟩ := List.append_of_mem h4
    obtain ⟨s1, hr1, hst⟩ := hr.prefix l1 _ rfl
    have hs1 : Smooth l1 := fun a e b hh => hs a e (b ++ _) (by rw [hh]; simp; rfl)
    have hc := hs l1 _ l2 rfl (.inr rfl)
    have hsec : s1.secret = none := by
      cases hk : s1.secret with
      | none => rfl
      | some k =>
        rw [(C14_secret_stable hr1 hst).2 k hk] at hn
        cases hn
    have h5 := ih l1.length (by rw [← hl]; simp) hr1 hs1 hsec rfl
    rcases status_of_progress hr1 hs1 with h6 | ⟨h6, -⟩
    · rw [(C09_fail_forever hr1 h6 hst).1] at h1; cases h1
    · rw [Progress.status, if_pos hc] at h6
      exact h5 h6

/-- **C71, user messages in minimal mode.** With a writer that takes everything, `write_message` succeeds from the moment
at which both own negotiation messages were written and both of the peer's were handed over, until the session is over. -/
theorem C71_write (hr : Run env st h s) (hs : Smooth h) (d : Bytes) {w : BufW} (hw : w.sink.script = [])
    (hn : env.overflowChecks = false ∨ h.countP Event.writes + 1 < 2 ^ 64) :
    (s.writeMessage env d w).2.2 = writeAnswer (Progress.of h) (ended h) := by
  have he := ended_iff hr
  have hsu := success_iff hr hs
  unfold writeAnswer
  rcases writeMessage_cases env s d w with ⟨h1, h2⟩ | ⟨_, _, h1, h2⟩ | ⟨h1, h3, -⟩ |
    ⟨h1, k, -, ⟨w', e, h3, -⟩ | ⟨w', -, ⟨n, -, h2⟩ | ⟨h3, -⟩⟩⟩
  · rw [h2, he.mp h1]; rfl
  · rw [h1] at he hsu
    have : ended h = false := by simpa using he
    rw [this] at hsu ⊢
    have : (Progress.of h).complete = false := by simpa using hsu
    rw [h2, this]; rfl
  · exact absurd h1 (secret_of_success hr hs h3)
  · have := (encrypt_good (env := env) k (userPlain env.cr s.nextNonceSent d) w hw).1
    rw [h3] at this; cases this
  · obtain ⟨h3, h4⟩ := hsu.mp h1
    rw [h2, h3, h4]; rfl
  · exfalso
    have h4 := sent_eq hr
    unfold addU64 at h3
    rcases hn with hn | hn
    · rw [hn] at h3
      split at h3 <;> simp at h3
    · rw [Nat.mod_eq_of_lt (by omega)] at h4
      rw [h4, if_pos (by simpa [u64Size] using hn)] at h3
      cases h3

/-- **C71, cloning.** -/
theorem C71_clone (hr : Run env st h s) (hs : Smooth h) :
    unitRes s.tryClone.2 = cloneAnswer (Progress.of h) (ended h) := by
  have hsu := success_iff hr hs
  unfold cloneAnswer Layer.tryClone
  by_cases h1 : s.status = .success
  · obtain ⟨h2, h3⟩ := hsu.mp h1
    rw [if_pos h1, h2, h3]; rfl
  · rw [if_neg h1, if_neg]
    · rfl
    · intro h2
      simp only [Bool.and_eq_true, Bool.not_eq_true'] at h2
      exact h1 (hsu.mpr h2)

/-- **C71, configuration.** -/
theorem C71_config (hr : Run env st h s) (c : Config) :
    (s.changeConfig c).2 = configAnswer (h.any Event.clones) := by
  unfold configAnswer Layer.changeConfig
  rw [← cloned_iff hr]
  cases s.cloned <;> rfl

end

/-! ## Complete mode: the end of a session -/

section
variable {M : Type} {env : Env} {f : Features} {st : CStart} {h : List (CEvent M)} {sl : SecureLayer}

theorem readBin_decodable (sl : SecureLayer) (b : Bytes) {e : Error} (h : (sl.readBin env b).2 = .err e) :
    undecodable e = false := by
  have al : ∀ {e}, alien e = false → undecodable e = false := by
    intro e h
    cases e <;> first | rfl | exact h
  unfold SecureLayer.readBin at h
  rcases hr : sl.minimal.read env b with ⟨m, (_ | mm) | e' | p⟩ <;> rw [hr] at h <;> try dsimp only at h
  · cases h
  · cases mm with
    | connect a k d =>
      dsimp only at h
      cases hu : SecureLayer.uncompressOpt env.cr d with
      | err e' => rw [hu] at h; cases h; rw [uncompressOpt_zip hu]; rfl
      | panic p => rw [hu] at h; cases h
      | ok cd =>
        rw [hu] at h
        dsimp only at h
        rcases ht : m.takeAck env with ⟨m2, (_ | mm) | e' | p⟩ <;> rw [ht] at h <;> try dsimp only at h
        · cases h
        · cases mm with
          | ack d2 =>
            dsimp only at h
            cases hu : SecureLayer.uncompressOpt env.cr d2 with
            | err e' => rw [hu] at h; cases h; rw [uncompressOpt_zip hu]; rfl
            | panic p => rw [hu] at h; cases h
            | ok cd => rw [hu] at h; cases h
          | connect _ _ _ => cases h
          | message _ => cases h
        · cases h; exact al (takeAck_alien m (by rw [ht]))
        · cases h
    | ack d =>
      dsimp only at h
      cases hu : SecureLayer.uncompressOpt env.cr d with
      | err e' => rw [hu] at h; cases h; rw [uncompressOpt_zip hu]; rfl
      | panic p => rw [hu] at h; cases h
      | ok cd =>
        rw [hu] at h
        dsimp only at h
        rcases ht : m.drainTmpStack env with ⟨m2, ms | e' | p⟩ <;> rw [ht] at h <;> try dsimp only at h
        · rw [uncompressUserMsgs_zip h]; rfl
        · cases h
          exact al (drainLoop_alien { m with tmpStack := [] } m.tmpStack [] (congrArg Prod.snd ht))
        · cases h
    | message d =>
      dsimp only at h
      cases hu : SecureLayer.uncompressOpt env.cr d with
      | err e' => rw [hu] at h; cases h; rw [uncompressOpt_zip hu]; rfl
      | panic p => rw [hu] at h; cases h
      | ok cd => rw [hu] at h; cases h
  · cases h; exact al (readInner_alien sl.minimal b true (congrArg Prod.snd hr))
  · cases h

theorem deserialize_undecodable {c : Codec M} {b : Bytes} {e : Error} (h : deserialize f c b = .err e) :
    undecodable e = true := by
  unfold deserialize at h
  split at h
  · cases h; rfl
  · rcases Res.err_of_bind h with h1 | ⟨fmt, -, h1⟩
    · unfold MessageFormat.tryFrom at h1
      split at h1 <;> [cases h1; split at h1] <;> [cases h1; split at h1] <;> [cases h1; split at h1] <;>
        [cases h1; split at h1] <;> cases h1
      rfl
    · unfold deserializeInner codecRes at h1
      cases fmt <;> dsimp only at h1
      · cases h1; rfl
      · cases h1
      · split at h1 <;> cases h1; rfl
      · split at h1 <;> cases h1; rfl
      · split at h1 <;> cases h1; rfl

theorem deserializeOpt_undecodable {c : Codec M} {b : Option Bytes} {e : Error} (h : deserializeOpt f c b = .err e) :
    undecodable e = true := by
  cases b with
  | none => cases h
  | some b =>
    rcases Res.err_of_bind h with h1 | ⟨_, -, h1⟩
    · exact deserialize_undecodable h1
    · cases h1

theorem deserializeMsg_undecodable {c : Codec M} {m : BinMessage} {e : Error} (h : deserializeMsg f c m = .err e) :
    undecodable e = true := by
  cases m <;>
  · rcases Res.err_of_bind h with h1 | ⟨_, -, h1⟩
    · exact deserializeOpt_undecodable h1
    · cases h1

theorem deserializeMsgs_undecodable {c : Codec M} {ms : List BinMessage} {e : Error} (h : deserializeMsgs f c ms = .err e) :
    undecodable e = true := by
  induction ms with
  | nil => cases h
  | cons m ms ih =>
    rcases Res.err_of_bind h with h1 | ⟨_, -, h1⟩
    · exact deserializeMsg_undecodable h1
    · rcases Res.err_of_bind h1 with h1 | ⟨_, -, h1⟩
      · exact ih h1
      · cases h1

/-- The call ends the session. -/
theorem cstep_ends (hw : Wf env st.inner sl.minimal) (op : COp M) :
    (cstep env f sl op).1.minimal.status = .fail ↔ sl.minimal.status = .fail ∨ (cstep env f sl op).2.ends = true := by
  have rd : ∀ b, (sl.readBin env b).1.minimal.status = .fail ↔
      sl.minimal.status = .fail ∨ (CEvent.readBin b (sl.readBin env b).2 : CEvent M).ends = true := by
    intro b
    have h1 := readBin_final (env := env) sl b
    generalize (sl.readBin env b).1 = sl' at h1 ⊢
    rcases hr : (sl.readBin env b).2 with ms | e | p <;> rw [hr] at h1
    · rw [h1.sound (by simp [Res.error?])]; simp [CEvent.ends]
    · cases hf : nonFatalBin e with
      | true =>
        rw [h1.sound (by simp [Res.error?, hf])]
        have : (CEvent.readBin b (.err e) : CEvent M).ends = false := by
          cases e <;> first | rfl | (cases hf) | skip
          rename_i i
          cases i <;> first | rfl | cases hf
        simp [this]
      | false =>
        rw [h1.fatal e rfl hf]
        have : (CEvent.readBin b (.err e) : CEvent M).ends = true := by
          cases e <;> first | rfl | (cases hf) | skip
          rename_i i
          cases i <;> first | rfl | cases hf
        simp [this]
    · rw [h1.sound (by simp [Res.error?])]; simp [CEvent.ends]
  have con : ∀ d w, (sl.writeConnectRaw env d w).1.minimal.status = .fail ↔ sl.minimal.status = .fail := by
    intro d w
    rcases writeConnectRaw_cases env sl d w with ⟨-, he⟩ | ⟨seed, -, -, he⟩ | ⟨seed, rem, hs, h1, he⟩ <;> rw [he]
    simp [h1]
  have ack : ∀ d w, (sl.writeAckRaw env d w).1.minimal.status = .fail ↔ sl.minimal.status = .fail := by
    intro d w
    rcases writeAckRaw_cases hw d w with ⟨-, he⟩ | ⟨seed, -, -, he⟩ | ⟨seed, loc, epk, hs, h1, hp, he⟩ <;> rw [he]
    rw [h1]
    dsimp only
    split <;> simp
  have wr : ∀ d w, (sl.writeBinRaw env d w).1.minimal.status = .fail ↔
      sl.minimal.status = .fail ∨ ∃ e, (sl.writeBinRaw env d w).2.2 = .err e := by
    intro d w
    show (sl.minimal.writeMessage env d w).1.status = _ ↔ _ ∨ ∃ e, (sl.minimal.writeMessage env d w).2.2 = _
    rcases writeMessage_cases env sl.minimal d w with ⟨hs, he⟩ | ⟨_, _, hs, he⟩ | ⟨hs, -, he⟩ |
      ⟨hs, k, -, ⟨w', e, -, he⟩ | ⟨w', -, ⟨n, -, he⟩ | ⟨-, he⟩⟩⟩ <;> rw [he] <;> simp [hs]
  have wre : ∀ d w e, (sl.writeBinRaw env d w).2.2 = .err e → undecodable e = false := by
    intro d w e
    show (sl.minimal.writeMessage env d w).2.2 = _ → _
    rcases writeMessage_cases env sl.minimal d w with ⟨hs, he⟩ | ⟨_, _, hs, he⟩ | ⟨hs, -, he⟩ |
      ⟨hs, k, -, ⟨w', e', h1, he⟩ | ⟨w', -, ⟨n, -, he⟩ | ⟨-, he⟩⟩⟩ <;> rw [he] <;> intro h <;> cases h <;> try rfl
    unfold encrypt at h1
    dsimp only at h1
    split at h1
    · cases h1; rfl
    · split at h1 <;> cases h1
      rfl
  cases op with
  | readBin b => exact rd b
  | readSer c b =>
    simp only [cstep, readSer_fst]
    rw [rd b]
    have hd := fun e => readBin_decodable (env := env) sl b (e := e)
    unfold SecureLayer.readSer
    rcases h0 : sl.readBin env b with ⟨sl', ms | e | p⟩ <;> rw [h0] at hd
    · dsimp only
      cases h1 : deserializeMsgs f c ms with
      | ok _ => simp [CEvent.ends]
      | panic _ => simp [CEvent.ends]
      | err e => simp [CEvent.ends, deserializeMsgs_undecodable h1]
    · simp [CEvent.ends, hd e rfl]
    · simp [CEvent.ends]
  | connectBin d w => simpa [cstep, CEvent.ends, SecureLayer.writeConnectBin] using con _ _
  | connectSer c d w =>
    simp only [cstep, CEvent.ends, SecureLayer.writeConnectSer]
    split <;> simp [con]
  | ackBin d w => simpa [cstep, CEvent.ends, SecureLayer.writeAckBin] using ack _ _
  | ackSer c d w =>
    simp only [cstep, CEvent.ends, SecureLayer.writeAckSer]
    split <;> simp [ack]
  | writeBin d w =>
    simp only [cstep]
    unfold SecureLayer.writeBin
    rw [wr]
    rcases (sl.writeBinRaw env (sl.compress env.cr d) w).2.2 with _ | _ | _ <;> simp [CEvent.ends]
  | writeSer c m w =>
    simp only [cstep]
    unfold SecureLayer.writeSer
    cases h1 : serialize c m sl.minimal.config.messageFormat with
    | ok b =>
      dsimp only
      rw [wr]
      have h2 := wre (sl.compress env.cr b) w
      rcases h3 : (sl.writeBinRaw env (sl.compress env.cr b) w).2.2 with _ | e | _ <;> simp [CEvent.ends]
      simp [h2 e h3]
    | err e =>
      obtain ⟨x, rfl⟩ := serialize_err h1
      simp [CEvent.ends, undecodable]
    | panic p => simp [CEvent.ends]
  | clone =>
    have : (sl.tryClone).1.minimal = (sl.minimal.tryClone).1 := by
      unfold SecureLayer.tryClone
      rcases sl.minimal.tryClone with ⟨m, _ | _ | _⟩ <;> rfl
    simp only [cstep, CEvent.ends, this, Layer.tryClone]
    split <;> simp
  | config c =>
    simp only [cstep, CEvent.ends, SecureLayer.changeConfig, Layer.changeConfig]
    split <;> simp

theorem CRun.init_minimal {sl : SecureLayer}
    (h : SecureLayer.create env.cr st.config st.seed st.expected (some st.seedRandom) (some st.random) = .ok sl) :
    Layer.create env.cr st.config st.expected (some st.random) = .ok sl.minimal ∧ sl.sigSeed ≠ none := by
  unfold SecureLayer.create at h
  cases hs : st.seed <;> rw [hs] at h <;>
  · simp only [Res.bind_ok] at h
    cases hc : Layer.create env.cr st.config st.expected (some st.random) with
    | ok m => rw [hc] at h; cases h; exact ⟨rfl, by simp⟩
    | err e => rw [hc] at h; cases h
    | panic p => rw [hc] at h; cases h

/-- The session is over exactly if some call said so. -/
theorem cended_iff (hr : CRun env f st h sl) : sl.minimal.status = .fail ↔ cended h = true := by
  induction hr with
  | init h =>
    have h := (CRun.init_minimal h).1
    simp only [Layer.create, EphemeralKeyPair.generate, Res.bind_ok, Res.ok.injEq] at h
    rw [← h]
    simp [cended, Status.init]
  | call hr op ih => rw [cstep_ends hr.wf, cended, List.any_append, ih]; simp [cended]
  | @cloned h s c hr hc ih =>
    obtain ⟨m, hm, rfl⟩ := ctryClone_ok hc
    obtain ⟨hs, rfl⟩ := tryClone_ok hm
    rw [hs] at ih
    rw [cended, List.any_append]
    simp only [reduceCtorEq, false_iff, Bool.not_eq_true] at ih
    rw [cended] at ih
    simp [ih, CEvent.ends, hs]

/-! ## Complete mode: the progress of the negotiation -/

/-- The progress after messages were handed over. -/
def Spec.Progress.hand (p : Progress) (ks : List Kind) : Progress :=
  ⟨p.sent, p.heard || ks.contains .connect, p.answered, p.confirmed || ks.contains .ack⟩

def Spec.Progress.addC (p : Progress) (e : CEvent M) : Progress :=
  ⟨p.sent || e.consumesConnect, p.heard || e.kinds.contains .connect, p.answered || e.consumesAck,
    p.confirmed || e.kinds.contains .ack⟩

theorem progressC_snoc (h : List (CEvent M)) (e : CEvent M) : Progress.ofC (h ++ [e]) = (Progress.ofC h).addC e := by
  simp [Progress.ofC, Progress.addC, ckinds]

theorem effect_success {cr : Crypto} {e : Event} {b : Status} (h : Effect cr .success e b) : b = .success ∨ b = .fail := by
  cases h with
  | quiet h => exact h

theorem steps_success {st : Start} {s s' : Layer} {es : List Event} (h : Steps env s es s') (hw : Wf env st s)
    (hs : s.status = .success) : s'.status = .success ∨ s'.status = .fail := by
  induction h with
  | refl => exact .inl hs
  | call hr op ih =>
    have h1 := step_effect (Wf.steps hw hr) op
    rcases ih with h2 | h2
    · rw [h2] at h1; exact effect_success h1
    · exact .inr ((step_ends (env := env) _ op).mpr (.inl h2))
  | cloned hr hc ih =>
    obtain ⟨h1, rfl⟩ := tryClone_ok hc
    exact .inl h1

theorem complete_addC {p : Progress} (h : p.complete = true) (e : CEvent M) : (p.addC e).complete = true ∧ (p.addC e).sane := by
  simp only [Progress.complete, Bool.and_eq_true] at h
  simp [Progress.addC, Progress.complete, Progress.sane, h]

theorem complete_status {p : Progress} (h : p.complete = true) : p.status = .success := by simp [Progress.status, h]

theorem progress_ne_fail (p : Progress) : p.status ≠ .fail := by
  unfold Progress.status
  split <;> simp

theorem uncompressUserMsgs_kinds {cr : Crypto} {ms : List Message} {acc out : List BinMessage}
    (h : SecureLayer.uncompressUserMsgs cr ms acc = .ok out) :
    (Kind.connect ∈ out.map BinMessage.kind ↔ Kind.connect ∈ acc.map BinMessage.kind) ∧
    (Kind.ack ∈ out.map BinMessage.kind ↔ Kind.ack ∈ acc.map BinMessage.kind) := by
  induction ms generalizing acc with
  | nil => cases h; exact ⟨.rfl, .rfl⟩
  | cons m ms ih =>
    cases m with
    | message d =>
      unfold SecureLayer.uncompressUserMsgs at h
      split at h <;> try cases h
      have := ih h
      simpa [BinMessage.kind] using this
    | connect a k d => exact ih h
    | ack d => exact ih h

/-- Only a call that answers that there is nothing to hand over keeps something. -/
theorem readInner_kept {s s' : Layer} {inc : Bytes} {chk : Bool} {r : Res (Option Message)}
    (h : s.readInner env inc chk = (s', r)) (hn : r ≠ .ok none) :
    s'.ackMsgRecvTooEarly = s.ackMsgRecvTooEarly ∧ s'.tmpStack = s.tmpStack := by
  have hcase := readInner_case env s inc chk
  rw [h] at hcase
  dsimp only at hcase
  have hu : ∀ n, (s.updateNonces env n).1.ackMsgRecvTooEarly = s.ackMsgRecvTooEarly ∧
      (s.updateNonces env n).1.tmpStack = s.tmpStack := by
    intro n
    obtain ⟨O', n', t, h1, -⟩ := updateNonces_frame env s n
    rw [h1]
    exact ⟨rfl, rfl⟩
  cases hcase with
  | @userOk d n s1 hp hh hn hs hl hv hx => have := hu n; rw [hx] at this; exact this
  | @userNonceErr d n s1 e hp hh hn hs hl hv hx => have := hu n; rw [hx] at this; exact this
  | @userNoncePanic d n s1 e hp hh hn hs hl hv hx => have := hu n; rw [hx] at this; exact this
  | _ => first | exact absurd rfl hn | exact ⟨rfl, rfl⟩

/-- `read_bin` before the negotiation is complete. -/
theorem readBin_progress {st : Start} {p : Progress} {kept : Bool} (hw : Wf env st sl.minimal) (hp : sl.minimal.status = p.status)
    (hs : p.sane) (hk : kept = false → sl.minimal.ackMsgRecvTooEarly = none ∧ sl.minimal.tmpStack = []) (b : Bytes)
    (hh : ¬ hidingAnswer kept (sl.readBin env b).2) :
    (sl.readBin env b).1.minimal.status = .fail ∨
    match (sl.readBin env b).2 with
    | .ok ms => (sl.readBin env b).1.minimal.status = (p.hand (ms.map BinMessage.kind)).status ∧
        (p.hand (ms.map BinMessage.kind)).sane
    | _ => (sl.readBin env b).1.minimal.status = p.status := by
  have soft : ∀ {cr : Crypto} {d : Option Bytes} {e : Error}, SecureLayer.uncompressOpt cr d = .err e →
      hidingAnswer kept (.err e : Res (List BinMessage)) := fun h => .inr (.inl (uncompressOpt_zip h))
  have hf := readBin_final (env := env) sl b
  have herr : ∀ e, (sl.readBin env b).2 = .err e → nonFatalBin e = true → nonFatal e = true ∧ kept = false := by
    intro e he hn
    rw [he] at hh
    have : e ≠ .zipError := fun h => hh (.inr (.inl h))
    have h1 : nonFatal e = true := by cases e <;> first | exact hn | rfl | exact absurd rfl this
    exact ⟨h1, by cases kept with | false => rfl | true => exact absurd (.inr (.inr (.inr ⟨rfl, h1⟩))) hh⟩
  have hread := step_effect hw (.read b)
  have hwr := hw.read b
  have hfr := readFrame env sl.minimal b true
  have hrf := readInner_final (env := env) sl.minimal b true
  unfold SecureLayer.readBin at hh hf herr ⊢
  simp only [step] at hread
  rw [hp] at hread
  rcases hr : sl.minimal.read env b with ⟨m, (_ | mm) | e | pa⟩ <;> rw [hr] at hh hf herr hread hwr <;>
    (have hr' : sl.minimal.readInner env b true = _ := hr) <;> rw [hr'] at hfr hrf <;> dsimp only at *
  · have := effect_progress hs (by simp [Event.hides, Event.panicked, Event.failedWith]) hread
    simpa [Progress.add, Event.createsConnect, Event.createsAck, Event.delivers, Progress.hand] using this
  · have h1 := effect_progress hs (by simp [Event.hides, Event.panicked, Event.failedWith]) hread
    have hnf : m.status = .fail → sl.minimal.status = .fail := (hrf.sound (by simp [Res.error?])).mp
    cases mm with
    | connect a k d =>
      dsimp only at *
      cases hu : SecureLayer.uncompressOpt env.cr d with
      | err e => rw [hu] at hh; exact absurd (soft hu) hh
      | panic pa => rw [hu] at hh; exact absurd trivial hh
      | ok cd =>
        rw [hu] at hh hf herr
        dsimp only at *
        have hta := step_effect hwr .takeAck
        simp only [step] at hta
        have htf := takeAck_final (env := env) m
        rcases h1 with h1 | ⟨h1, h2⟩
        · exact absurd (hp.symm.trans (hnf h1)) (progress_ne_fail p)
        · rw [h1] at hta
          rcases ht : m.takeAck env with ⟨m2, (_ | mm) | e | pa⟩ <;> rw [ht] at hh hf herr hta htf <;> try dsimp only at *
          · have := effect_progress h2 (by simp [Event.hides, Event.panicked, Event.failedWith]) hta
            simpa [Progress.add, Event.createsConnect, Event.createsAck, Event.delivers, Progress.hand, isConnect, isAck,
              BinMessage.kind] using this
          · have h3 := effect_progress h2 (by simp [Event.hides, Event.panicked, Event.failedWith]) hta
            cases mm with
            | ack d2 =>
              dsimp only at *
              cases hu2 : SecureLayer.uncompressOpt env.cr d2 with
              | err e => rw [hu2] at hh; exact absurd (soft hu2) hh
              | panic pa => rw [hu2] at hh; exact absurd trivial hh
              | ok cd2 =>
                simpa [Progress.add, Event.createsConnect, Event.createsAck, Event.delivers, Progress.hand, isConnect, isAck,
                  BinMessage.kind] using h3
            | connect _ _ _ =>
              simpa [Progress.add, Event.createsConnect, Event.createsAck, Event.delivers, Progress.hand, isConnect, isAck,
                BinMessage.kind] using h3
            | message _ =>
              simpa [Progress.add, Event.createsConnect, Event.createsAck, Event.delivers, Progress.hand, isConnect, isAck,
                BinMessage.kind] using h3
          · cases hn : nonFatalBin e with
            | false => exact .inl (htf.fatal e rfl hn)
            | true =>
              obtain ⟨-, hkf⟩ := herr e rfl hn
              have h3 := (hk hkf).1
              rw [← (readInner_kept hr' (by simp)).1] at h3
              rcases takeAck_cases env m with ⟨-, h4⟩ | ⟨b', h4, -⟩
              · rw [ht] at h4; cases h4
              · rw [h3] at h4; cases h4
          · exact absurd trivial hh
    | ack d =>
      dsimp only at *
      cases hu : SecureLayer.uncompressOpt env.cr d with
      | err e => rw [hu] at hh; exact absurd (soft hu) hh
      | panic pa => rw [hu] at hh; exact absurd trivial hh
      | ok cd =>
        rw [hu] at hh hf herr
        dsimp only at *
        have hta := step_effect hwr .drain
        simp only [step] at hta
        have htf := drainLoop_final (env := env) { m with tmpStack := [] } m.tmpStack []
        rcases h1 with h1 | ⟨h1, h2⟩
        · exact absurd (hp.symm.trans (hnf h1)) (progress_ne_fail p)
        · rw [h1] at hta
          rcases ht : m.drainTmpStack env with ⟨m2, ms | e | pa⟩ <;>
            (have ht' : Layer.drainLoop env { m with tmpStack := [] } m.tmpStack [] = _ := ht) <;>
            rw [ht] at hh hf herr hta <;> rw [ht'] at htf <;> try dsimp only at *
          · have h3 := effect_progress h2 (by simp [Event.hides, Event.panicked, Event.failedWith]) hta
            have h4 : (Event.drain (.ok ms)).delivers.any isConnect = false ∧ (Event.drain (.ok ms)).delivers.any isAck = false := by
              generalize (p.add _).status = a at hta
              generalize m2.status = c at hta
              generalize hx : Event.drain (.ok ms) = x at hta ⊢
              cases hta with
              | quiet h h1 h2 h3 =>
                constructor <;>
                · rw [List.any_eq_false]
                  intro y hy
                  obtain ⟨z, rfl, -⟩ := h3 y hy
                  simp [isConnect, isAck]
              | createsConnect => cases hx
              | createsAck => cases hx
              | acceptsConnect h => subst hx; exact absurd h id
              | acceptsAck h => subst hx; exact absurd h id
            have h5 : ∀ q : Progress, q.add (.drain (.ok ms)) = q := by
              intro q
              simp [Progress.add, h4.1, h4.2, Event.createsConnect, Event.createsAck]
            rw [h5] at h3
            rcases hz : SecureLayer.uncompressUserMsgs env.cr ms [.ack cd] with out | e | pa <;> rw [hz] at hh
            · obtain ⟨k1, k2⟩ := uncompressUserMsgs_kinds hz
              have : p.hand (out.map BinMessage.kind) = p.add (.read b (.ok (some (.ack d)))) := by
                have k1 : (out.map BinMessage.kind).contains .connect = false := by
                  rw [← Bool.not_eq_true, List.contains_iff_mem, k1]; simp [BinMessage.kind]
                have k2 : (out.map BinMessage.kind).contains .ack = true := by
                  rw [List.contains_iff_mem, k2]; simp [BinMessage.kind]
                rw [Progress.hand, k1, k2]
                simp [Progress.add, Event.createsConnect, Event.createsAck, Event.delivers, isConnect, isAck]
              dsimp only
              rw [this]
              exact h3
            · exact absurd (.inr (.inl (uncompressUserMsgs_zip hz))) hh
            · exact absurd trivial hh
          · cases hn : nonFatalBin e with
            | false => exact .inl (htf.fatal e rfl hn)
            | true =>
              obtain ⟨-, hkf⟩ := herr e rfl hn
              have h3 := (hk hkf).2
              rw [← (readInner_kept hr' (by simp)).2] at h3
              rw [h3] at ht'
              cases ht'
          · exact absurd trivial hh
    | message d =>
      dsimp only at *
      cases hu : SecureLayer.uncompressOpt env.cr d with
      | err e => rw [hu] at hh; exact absurd (soft hu) hh
      | panic pa => rw [hu] at hh; exact absurd trivial hh
      | ok cd =>
        simpa [Progress.add, Event.createsConnect, Event.createsAck, Event.delivers, Progress.hand, isConnect, isAck,
              BinMessage.kind] using h1
  · rcases read_err hr with ⟨-, h1⟩ | ⟨-, h1⟩ | ⟨-, -, -, k, -, h1⟩ | ⟨h1, -⟩
    · exact .inl h1
    · rw [h1]; exact .inr hp
    · rw [h1]; exact .inr hp
    · exact absurd (.inl h1) hh
  · exact absurd trivial hh

/-- What is not kept before `read_bin` is not kept afterwards either, unless the answer says so. -/
theorem readBin_keeps {b : Bytes} (h1 : sl.minimal.ackMsgRecvTooEarly = none) (h2 : sl.minimal.tmpStack = [])
    (hn : (sl.readBin env b).2 ≠ .ok []) :
    (sl.readBin env b).1.minimal.ackMsgRecvTooEarly = none ∧ (sl.readBin env b).1.minimal.tmpStack = [] := by
  unfold SecureLayer.readBin at hn ⊢
  rcases hr : sl.minimal.read env b with ⟨m, (_ | mm) | e | pa⟩ <;> rw [hr] at hn <;>
    (have hr' : sl.minimal.readInner env b true = _ := hr) <;> try dsimp only at *
  · exact absurd rfl hn
  · obtain ⟨h3, h4⟩ := readInner_kept hr' (by simp)
    rw [h1] at h3
    rw [h2] at h4
    cases mm with
    | connect a k d =>
      dsimp only at *
      cases hu : SecureLayer.uncompressOpt env.cr d with
      | err e => exact ⟨h3, h4⟩
      | panic pa => exact ⟨h3, h4⟩
      | ok cd =>
        dsimp only
        rcases takeAck_cases env m with ⟨-, h5⟩ | ⟨b', h5, -⟩
        · rw [h5]; exact ⟨h3, h4⟩
        · rw [h3] at h5; cases h5
    | ack d =>
      dsimp only at *
      cases hu : SecureLayer.uncompressOpt env.cr d with
      | err e => exact ⟨h3, h4⟩
      | panic pa => exact ⟨h3, h4⟩
      | ok cd =>
        dsimp only
        unfold Layer.drainTmpStack
        rw [h4]
        exact ⟨h3, rfl⟩
    | message d =>
      dsimp only at *
      cases hu : SecureLayer.uncompressOpt env.cr d <;> exact ⟨h3, h4⟩
  · obtain ⟨h3, h4⟩ := readInner_kept hr' (by simp)
    exact ⟨h3.trans h1, h4.trans h2⟩
  · obtain ⟨h3, h4⟩ := readInner_kept hr' (by simp)
    exact ⟨h3.trans h1, h4.trans h2⟩

/-- Nothing is kept unless an answer says so. -/
theorem kept_of_run (hr : CRun env f st h sl) (hk : h.any CEvent.keeps = false) :
    sl.minimal.ackMsgRecvTooEarly = none ∧ sl.minimal.tmpStack = [] := by
  induction hr with
  | init h =>
    have h := (CRun.init_minimal h).1
    simp only [Layer.create, EphemeralKeyPair.generate, Res.bind_ok, Res.ok.injEq] at h
    rw [← h]
    exact ⟨rfl, rfl⟩
  | @call h sl hr op ih =>
    simp only [List.any_append, List.any_cons, List.any_nil, Bool.or_false, Bool.or_eq_false_iff] at hk
    obtain ⟨h1, h2⟩ := ih hk.1
    cases hi : op.input? with
    | none =>
      have h3 := cstep_keeps (f := f) hr.wf hi
      exact ⟨h3.ack.trans h1, h3.stack.trans h2⟩
    | some b =>
      rw [cstep_read hi]
      refine readBin_keeps h1 h2 fun h3 => ?_
      have h4 := hk.2
      cases op <;> simp [COp.input?] at hi
      · subst hi; simp [cstep, h3, CEvent.keeps] at h4
      · have : ∀ c : Codec M, (sl.readSer env f c b).2 = .ok [] := by
          intro c
          unfold SecureLayer.readSer
          rcases hx : sl.readBin env b with ⟨s', r⟩
          rw [hx] at h3
          dsimp only at h3
          rw [h3]
          rfl
        subst hi
        simp [cstep, this, CEvent.keeps] at h4
  | @cloned h s c hr hc ih =>
    simp only [List.any_append, List.any_cons, List.any_nil, Bool.or_false, Bool.or_eq_false_iff] at hk
    obtain ⟨m, hm, rfl⟩ := ctryClone_ok hc
    obtain ⟨-, rfl⟩ := tryClone_ok hm
    exact ⟨rfl, (ih hk.1).2⟩

theorem cstep_progress {st : Start} {p : Progress} {kept : Bool} (hw : Wf env st sl.minimal) (hp : sl.minimal.status = p.status)
    (hs : p.sane) (hk : kept = false → sl.minimal.ackMsgRecvTooEarly = none ∧ sl.minimal.tmpStack = []) (op : COp M)
    (hh : ¬ (cstep env f sl op).2.hides kept) :
    (cstep env f sl op).1.minimal.status = .fail ∨
    ((cstep env f sl op).1.minimal.status = (p.addC (cstep env f sl op).2).status ∧ (p.addC (cstep env f sl op).2).sane) := by
  have nop : ∀ e : CEvent M, e.consumesConnect = false → e.consumesAck = false → e.kinds = [] → p.addC e = p := by
    intro e h1 h2 h3
    simp [Progress.addC, h1, h2, h3]
  have con : ∀ d w, (sl.writeConnectRaw env d w).1.minimal.status =
      (⟨p.sent || decide ((sl.writeConnectRaw env d w).2.2 = .ok () ∨ (sl.writeConnectRaw env d w).2.2 = .err .bufferFlushError),
        p.heard, p.answered, p.confirmed⟩ : Progress).status ∧
      (⟨p.sent || decide ((sl.writeConnectRaw env d w).2.2 = .ok () ∨ (sl.writeConnectRaw env d w).2.2 = .err .bufferFlushError),
        p.heard, p.answered, p.confirmed⟩ : Progress).sane := by
    intro d w
    rcases writeConnectRaw_cases env sl d w with ⟨-, he⟩ | ⟨seed, -, -, he⟩ | ⟨seed, rem, hx, h1, he⟩ <;> rw [he] <;> dsimp only
    · simpa using ⟨hp, hs⟩
    · have : ¬ ((Res.err (if sl.minimal.status = .fail then .connectionHadFail else .connectMsgAlreadyWritten) : Res Unit) = .ok () ∨
          (Res.err (if sl.minimal.status = .fail then .connectionHadFail else .connectMsgAlreadyWritten) : Res Unit) =
            .err .bufferFlushError) := by split <;> simp
      rw [decide_eq_false this]
      simpa using ⟨hp, hs⟩
    · rw [decide_eq_true (writeSigned_res ..)]
      rw [h1] at hp
      rcases p with ⟨_ | _, _ | _, _ | _, _ | _⟩ <;> simp_all [Progress.status, Progress.complete, Progress.sane]
  have ack : ∀ d w, (sl.writeAckRaw env d w).1.minimal.status =
      (⟨p.sent, p.heard, p.answered || decide ((sl.writeAckRaw env d w).2.2 = .ok () ∨
        (sl.writeAckRaw env d w).2.2 = .err .bufferFlushError), p.confirmed⟩ : Progress).status ∧
      (⟨p.sent, p.heard, p.answered || decide ((sl.writeAckRaw env d w).2.2 = .ok () ∨
        (sl.writeAckRaw env d w).2.2 = .err .bufferFlushError), p.confirmed⟩ : Progress).sane := by
    intro d w
    rcases writeAckRaw_cases hw d w with ⟨-, he⟩ | ⟨seed, -, -, he⟩ | ⟨seed, loc, epk, hx, h1, hpe, he⟩ <;> rw [he] <;> dsimp only
    · simpa using ⟨hp, hs⟩
    · have : ¬ ((Res.err (if sl.minimal.status = .fail then .connectionHadFail else .forbidWriteAckMsgNow) : Res Unit) = .ok () ∨
          (Res.err (if sl.minimal.status = .fail then .connectionHadFail else .forbidWriteAckMsgNow) : Res Unit) =
            .err .bufferFlushError) := by split <;> simp
      rw [decide_eq_false this]
      simpa using ⟨hp, hs⟩
    · rw [decide_eq_true (writeSigned_res ..)]
      rw [h1] at hp
      rcases p with ⟨_ | _, _ | _, _ | _, _ | _⟩ <;> simp_all [Progress.status, Progress.complete, Progress.sane] <;>
        (obtain rfl := hp; simp)
  have wr : ∀ d w, (sl.writeBinRaw env d w).1.minimal.status = .fail ∨ (sl.writeBinRaw env d w).1.minimal.status = p.status := by
    intro d w
    show (sl.minimal.writeMessage env d w).1.status = _ ∨ (sl.minimal.writeMessage env d w).1.status = _
    rcases writeMessage_cases env sl.minimal d w with ⟨hs, he⟩ | ⟨_, _, hs, he⟩ | ⟨hs, -, he⟩ |
      ⟨hs, k, -, ⟨w', e, -, he⟩ | ⟨w', -, ⟨n, -, he⟩ | ⟨-, he⟩⟩⟩ <;> rw [he] <;> simp [← hp, hs]
  cases op with
  | readBin b =>
    have := readBin_progress hw hp hs hk b hh
    simp only [cstep]
    refine this.imp id ?_
    rcases (sl.readBin env b).2 with ms | e | pa
    · intro h
      simpa [Progress.addC, Progress.hand, CEvent.consumesConnect, CEvent.consumesAck, CEvent.kinds] using h
    · intro h; rw [nop _ rfl rfl rfl]; exact ⟨h, hs⟩
    · intro h; rw [nop _ rfl rfl rfl]; exact ⟨h, hs⟩
  | readSer c b =>
    simp only [cstep, readSer_fst]
    have hh : ¬ hidingAnswer kept (sl.readSer env f c b).2 := hh
    have h1 : ¬ hidingAnswer kept (sl.readBin env b).2 := by
      unfold SecureLayer.readSer at hh
      rcases hx : sl.readBin env b with ⟨s', ms | e | pa⟩ <;> rw [hx] at hh
      · exact id
      · exact hh
      · exact hh
    refine (readBin_progress hw hp hs hk b h1).imp id ?_
    unfold SecureLayer.readSer at hh ⊢
    rcases hx : sl.readBin env b with ⟨s', ms | e | pa⟩ <;> rw [hx] at hh <;> dsimp only at *
    · intro h
      cases hd : deserializeMsgs f c ms with
      | ok ys =>
        simpa [Progress.addC, Progress.hand, CEvent.consumesConnect, CEvent.consumesAck, CEvent.kinds,
          deserializeMsgs_kinds hd] using h
      | err e =>
        rw [hd] at hh
        exact absurd (.inr (.inr (.inl (deserializeMsgs_undecodable hd)))) hh
      | panic pa => rw [hd] at hh; exact absurd trivial hh
    · intro h; rw [nop _ rfl rfl rfl]; exact ⟨h, hs⟩
    · intro h; rw [nop _ rfl rfl rfl]; exact ⟨h, hs⟩
  | connectBin d w =>
    right
    simpa [cstep, SecureLayer.writeConnectBin, Progress.addC, CEvent.consumesConnect, CEvent.consumesAck, CEvent.kinds] using con _ _
  | connectSer c d w =>
    right
    simp only [cstep]
    unfold SecureLayer.writeConnectSer
    cases h1 : SecureLayer.serializeOpt env.cr c sl d with
    | ok x => simpa [Progress.addC, CEvent.consumesConnect, CEvent.consumesAck, CEvent.kinds] using con x w
    | err e =>
      obtain ⟨x, rfl⟩ := serializeOpt_err h1
      dsimp only
      rw [nop _ rfl rfl rfl]; exact ⟨hp, hs⟩
    | panic pa => dsimp only; rw [nop _ rfl rfl rfl]; exact ⟨hp, hs⟩
  | ackBin d w =>
    right
    simpa [cstep, SecureLayer.writeAckBin, Progress.addC, CEvent.consumesConnect, CEvent.consumesAck, CEvent.kinds] using ack _ _
  | ackSer c d w =>
    right
    simp only [cstep]
    unfold SecureLayer.writeAckSer
    cases h1 : SecureLayer.serializeOpt env.cr c sl d with
    | ok x => simpa [Progress.addC, CEvent.consumesConnect, CEvent.consumesAck, CEvent.kinds] using ack x w
    | err e =>
      obtain ⟨x, rfl⟩ := serializeOpt_err h1
      dsimp only
      rw [nop _ rfl rfl rfl]; exact ⟨hp, hs⟩
    | panic pa => dsimp only; rw [nop _ rfl rfl rfl]; exact ⟨hp, hs⟩
  | writeBin d w =>
    simp only [cstep]
    rw [nop _ rfl rfl rfl]
    exact (wr _ _).imp id fun h => ⟨h, hs⟩
  | writeSer c m w =>
    simp only [cstep]
    rw [nop _ rfl rfl rfl]
    unfold SecureLayer.writeSer
    split
    · exact (wr _ _).imp id fun h => ⟨h, hs⟩
    · exact .inr ⟨hp, hs⟩
    · exact .inr ⟨hp, hs⟩
  | clone =>
    simp only [cstep]
    rw [nop _ rfl rfl rfl]
    have : (sl.tryClone).1.minimal = (sl.minimal.tryClone).1 := by
      unfold SecureLayer.tryClone
      rcases sl.minimal.tryClone with ⟨m, _ | _ | _⟩ <;> rfl
    right
    rw [this]
    unfold Layer.tryClone
    split <;> exact ⟨hp, hs⟩
  | config c =>
    simp only [cstep]
    rw [nop _ rfl rfl rfl]
    right
    unfold SecureLayer.changeConfig Layer.changeConfig
    cases sl.minimal.cloned <;> exact ⟨hp, hs⟩

/-- As long as no negotiation message gets lost, the application knows the status of the layer. -/
theorem status_of_progressC (hr : CRun env f st h sl) (hs : CSmooth h) :
    sl.minimal.status = .fail ∨ (sl.minimal.status = (Progress.ofC h).status ∧ (Progress.ofC h).sane) := by
  induction hr with
  | init h =>
    have h := (CRun.init_minimal h).1
    simp only [Layer.create, EphemeralKeyPair.generate, Res.bind_ok, Res.ok.injEq] at h
    rw [← h]
    right
    exact ⟨rfl, by simp [Progress.sane, Progress.ofC, ckinds]⟩
  | @call h sl hr op ih =>
    have h1 : CSmooth h := fun a x b hh => hs a x (b ++ [_]) (by simp [hh]; rfl)
    have h2 := hs h _ [] rfl
    rw [progressC_snoc]
    rcases ih h1 with h3 | ⟨h3, h4⟩
    · left; rw [cstep_ends hr.wf]; exact .inl h3
    · by_cases hc : (Progress.ofC h).complete = true
      · obtain ⟨es, h5, -⟩ := cstep_lower (f := f) hr.wf op
        rw [complete_status hc] at h3
        obtain ⟨h6, h7⟩ := complete_addC hc (cstep env f sl op).2
        rw [complete_status h6]
        exact (steps_success h5 hr.wf h3).symm.imp id fun h => ⟨h, h7⟩
      · exact cstep_progress hr.wf h3 h4 (kept_of_run hr) op fun h => hc (h2 h)
  | @cloned h s c hr hc ih =>
    have h1 : CSmooth h := fun a x b hh => hs a x (b ++ [_]) (by simp [hh]; rfl)
    obtain ⟨m, hm, rfl⟩ := ctryClone_ok hc
    obtain ⟨hs', rfl⟩ := tryClone_ok hm
    have : (Progress.ofC h).addC (.clone (.ok ()) : CEvent M) = Progress.ofC h := by
      simp [Progress.addC, CEvent.consumesConnect, CEvent.consumesAck, CEvent.kinds]
    rw [progressC_snoc, this]
    exact ih h1

theorem csuccess_iff (hr : CRun env f st h sl) (hs : CSmooth h) :
    sl.minimal.status = .success ↔ cended h = false ∧ (Progress.ofC h).complete = true := by
  have he := cended_iff hr
  rcases status_of_progressC hr hs with h2 | ⟨h2, -⟩
  · simp [h2, he.mp h2]
  · have h1 : sl.minimal.status ≠ .fail := by rw [h2]; exact progress_ne_fail _
    have h1 : cended h = false := by rw [ne_eq, he] at h1; simpa using h1
    rw [h2, h1, Progress.status]
    split <;> simp_all

/-! ## The answers in complete mode -/

/-- Once the peer's CONNECT has been handed over there is a secret. -/
theorem secret_of_heard {st : Start} {h : List Event} {s : Layer} (hr : Run env st h s) (hh : ∃ m ∈ deliveries h, isConnect m = true) :
    s.secret ≠ none := by
  induction hr with
  | init h => simp [deliveries] at hh
  | @call h s hr op ih =>
    by_cases h1 : ∃ m ∈ deliveries h, isConnect m = true
    · obtain ⟨k, hk⟩ := Option.ne_none_iff_exists'.mp (ih h1)
      rw [(C14_secret_stable hr (.call (.refl _) op)).2 k hk]
      simp
    · have h2 : ∃ m ∈ (step env s op).2.delivers, isConnect m = true := by
        obtain ⟨m, hm, hc⟩ := hh
        simp only [deliveries, List.flatMap_append, List.mem_append] at hm
        rcases hm with hm | hm
        · exact absurd ⟨m, hm, hc⟩ h1
        · exact ⟨m, by simpa using hm, hc⟩
      obtain ⟨m, hm, hc⟩ := h2
      have heff := step_effect (Wf.of_run hr) op
      have hop : ∃ inc a k d, op = .read inc ∧ (s.read env inc).2 = .ok (some (.connect a k d)) := by
        generalize hx : (step env s op).2 = x at heff hm
        generalize (step env s op).1.status = b at heff
        generalize s.status = a0 at heff
        cases heff with
        | quiet _ _ _ h3 => obtain ⟨d, rfl, -⟩ := h3 m hm; cases hc
        | createsConnect => simp [Event.delivers] at hm
        | createsAck => simp [Event.delivers] at hm
        | acceptsAck _ h3 => have := h3 m hm; cases m <;> simp_all [isConnect, isAck]
        | acceptsConnect h3 =>
          cases x with
          | read inc r =>
            cases op <;> simp only [step] at hx <;> cases hx
            obtain ⟨-, ⟨a, k, d, h4⟩ | h4 | h4⟩ := h3
            · exact ⟨_, a, k, d, rfl, h4⟩
            · rw [h4] at hm; simp [Event.delivers] at hm
            · rw [h4] at hm; simp [Event.delivers] at hm
          | _ => exact absurd h3 id
      obtain ⟨inc, a, k, d, rfl, h3⟩ := hop
      have hcase := read_case env s inc
      show (s.read env inc).1.secret ≠ none
      rw [h3] at hcase
      generalize (s.read env inc).1 = s' at hcase
      generalize hre : (Res.ok (some (.connect a k d)) : Res (Option Message)) = r at hcase
      have gm : ∀ d', Res.ok (some (Message.connect a k d)) = Layer.getMessage d' →
          ∃ e al k, d'.msgTypeHeaders = .connect e al k := by
        intro d' h4
        rcases getMessage_cases d' with ⟨p, h5⟩ | h5 <;> rw [h5] at h4
        · cases hm : d'.msgTypeHeaders <;> rw [hm] at h4
          · exact ⟨_, _, _, rfl⟩
          · cases h4
          · cases h4
        · cases h4
      cases hcase with
      | connectNoKp => 
        split at hre
        · rename_i h4; intro h5; rw [show s.secret = none from h5] at h4; cases h4
        · cases hre
      | connectOk => simp
      | ackOk hp hh =>
        obtain ⟨_, _, _, h4⟩ := gm _ hre
        rw [hh] at h4; cases h4
      | userOk hp hh =>
        obtain ⟨_, _, _, h4⟩ := gm _ hre
        rw [hh] at h4; cases h4
      | _ => cases hre
  | @cloned h s c hr hc ih =>
    obtain ⟨-, rfl⟩ := tryClone_ok hc
    refine ih ?_
    simpa [deliveries, Event.delivers] using hh

theorem csecret_of_heard (hr : CRun env f st h sl) (hh : (Progress.ofC h).heard = true) : sl.minimal.secret ≠ none := by
  obtain ⟨⟨l, hl, hlow⟩, -⟩ := hr.lower
  refine secret_of_heard hl ?_
  have h1 : Kind.connect ∈ ckinds h := by simpa [Progress.ofC] using hh
  obtain ⟨m, hm, h2⟩ := List.mem_map.mp (hlow.kinds.subset h1)
  exact ⟨m, hm, by cases m <;> first | rfl | cases h2⟩

theorem cended_false (hr : CRun env f st h sl) {a : LocalNego} {b : RemoteNego} (hs : sl.minimal.status = .ongoing a b) :
    cended h = false := by
  have he := cended_iff hr
  rw [hs] at he
  simpa using he

/-- A layer that has not been cloned and is not a clone has its key pair. -/
theorem seed_of_run (hr : CRun env f st h sl) (hc : h.any CEvent.clones = false) : sl.sigSeed ≠ none := by
  induction hr with
  | init h => exact (CRun.init_minimal h).2
  | @call h sl hr op ih =>
    simp only [List.any_append, Bool.or_eq_false_iff] at hc
    obtain ⟨es, -, h5, -⟩ := cstep_lower (f := f) hr.wf op
    rw [h5]
    exact ih hc.1
  | @cloned h s c hr hc' ih => simp [CEvent.clones] at hc

theorem connectRaw_answer (hr : CRun env f st h sl) (hs : CSmooth h) (hc : h.any CEvent.clones = false) (d : Option Bytes)
    {w : BufW} (hw : w.sink.script = []) :
    (sl.writeConnectRaw env d w).2.2 = connectAnswer (Progress.ofC h) (cended h) := by
  have he := cended_iff hr
  have hsd := seed_of_run hr hc
  unfold connectAnswer
  rcases writeConnectRaw_cases env sl d w with ⟨h1, -⟩ | ⟨seed, -, h1, h2⟩ | ⟨seed, rem, -, h1, h2⟩
  · exact absurd h1 hsd
  · rw [h2]
    rcases status_of_progressC hr hs with h3 | ⟨h3, h4⟩
    · rw [if_pos h3, he.mp h3]; rfl
    · have h5 : sl.minimal.status ≠ .fail := by rw [h3]; exact progress_ne_fail _
      have h6 : cended h = false := by rw [ne_eq, he] at h5; simpa using h5
      rw [if_neg h5, h6]
      rw [h3] at h1
      generalize Progress.ofC h = p at h1 h4 ⊢
      rcases p with ⟨_ | _, _ | _, _ | _, _ | _⟩ <;> simp_all [Progress.status, Progress.complete, Progress.sane]
  · obtain ⟨w', h5, -⟩ := writeSigned_good env.cr seed
      (connectFrame sl.minimal.ephemeralPubkey (env.cr.edPublic seed) (d.getD [])) hw
    rw [h2, h5, cended_false hr h1]
    rcases status_of_progressC hr hs with h3 | ⟨h3, h4⟩
    · rw [h1] at h3; cases h3
    · rw [h1] at h3
      generalize Progress.ofC h = p at h3 h4 ⊢
      rcases p with ⟨_ | _, _ | _, _ | _, _ | _⟩ <;> simp_all [Progress.status, Progress.complete, Progress.sane]

theorem ackRaw_answer (hr : CRun env f st h sl) (hs : CSmooth h) (hc : h.any CEvent.clones = false) (d : Option Bytes)
    {w : BufW} (hw : w.sink.script = []) :
    (sl.writeAckRaw env d w).2.2 = ackAnswer (Progress.ofC h) (cended h) := by
  have he := cended_iff hr
  have hsd := seed_of_run hr hc
  unfold ackAnswer
  rcases writeAckRaw_cases hr.wf d w with ⟨h1, -⟩ | ⟨seed, -, h1, h2⟩ | ⟨seed, loc, epk, -, h1, -, h2⟩
  · exact absurd h1 hsd
  · rw [h2]
    rcases status_of_progressC hr hs with h3 | ⟨h3, h4⟩
    · rw [if_pos h3, he.mp h3]; rfl
    · have h5 : sl.minimal.status ≠ .fail := by rw [h3]; exact progress_ne_fail _
      have h6 : cended h = false := by rw [ne_eq, he] at h5; simpa using h5
      rw [if_neg h5, h6]
      rw [h3] at h1
      generalize Progress.ofC h = p at h1 h4 ⊢
      rcases p with ⟨_ | _, _ | _, _ | _, _ | _⟩ <;> simp_all [Progress.status, Progress.complete, Progress.sane]
  · obtain ⟨w', h5, -⟩ := writeSigned_good env.cr seed (ackFrame (env.cr.sha256 epk) (d.getD [])) hw
    rw [h2, h5, cended_false hr h1]
    rcases status_of_progressC hr hs with h3 | ⟨h3, h4⟩
    · rw [h1] at h3; cases h3
    · rw [h1] at h3
      generalize Progress.ofC h = p at h3 h4 ⊢
      rcases p with ⟨_ | _, _ | _, _ | _, _ | _⟩ <;> simp_all [Progress.status, Progress.complete, Progress.sane]

theorem writeRaw_answer (hr : CRun env f st h sl) (hs : CSmooth h) (d : Bytes) {w : BufW} (hw : w.sink.script = [])
    (hn : env.overflowChecks = false ∨ h.countP CEvent.writesUser + 1 < 2 ^ 64) :
    (sl.writeBinRaw env d w).2.2 = writeAnswer (Progress.ofC h) (cended h) := by
  have he := cended_iff hr
  have hsu := csuccess_iff hr hs
  show (sl.minimal.writeMessage env d w).2.2 = _
  unfold writeAnswer
  rcases writeMessage_cases env sl.minimal d w with ⟨h1, h2⟩ | ⟨_, _, h1, h2⟩ | ⟨h1, h3, -⟩ |
    ⟨h1, k, -, ⟨w', e, h3, -⟩ | ⟨w', -, ⟨n, -, h2⟩ | ⟨h3, -⟩⟩⟩
  · rw [h2, he.mp h1]; rfl
  · have h4 := cended_false hr h1
    rw [h1, h4] at hsu
    have : (Progress.ofC h).complete = false := by simpa using hsu
    rw [h2, h4, this]; rfl
  · refine absurd h3 (csecret_of_heard hr ?_)
    have := (hsu.mp h1).2
    simp only [Progress.complete, Bool.and_eq_true] at this
    exact this.1.1.2
  · have := (encrypt_good (env := env) k (userPlain env.cr sl.minimal.nextNonceSent d) w hw).1
    rw [h3] at this; cases this
  · obtain ⟨h3, h4⟩ := hsu.mp h1
    rw [h2, h3, h4]; rfl
  · exfalso
    obtain ⟨⟨l, hl, hlow⟩, -⟩ := hr.lower
    have h4 := sent_eq hl
    rw [hlow.counts.2.2.1] at h4
    unfold addU64 at h3
    rcases hn with hn | hn
    · rw [hn] at h3
      split at h3 <;> simp at h3
    · rw [Nat.mod_eq_of_lt (by omega)] at h4
      rw [h4, if_pos (by simpa [u64Size] using hn)] at h3
      cases h3

/-- **C71, CONNECT in complete mode.** -/
theorem C71_connect_complete (hr : CRun env f st h sl) (hs : CSmooth h) (hc : h.any CEvent.clones = false) {w : BufW}
    (hw : w.sink.script = []) :
    (∀ d, (sl.writeConnectBin env d w).2.2 = connectAnswer (Progress.ofC h) (cended h)) ∧
    ∀ (c : Codec M) (m : Option M), (∀ x, m = some x → (serialize c x (inForce st.config h).messageFormat).isOk = true) →
      (sl.writeConnectSer env c m w).2.2 = connectAnswer (Progress.ofC h) (cended h) := by
  refine ⟨fun d => connectRaw_answer hr hs hc _ hw, fun c m hm => ?_⟩
  have h1 : ∃ x, SecureLayer.serializeOpt env.cr c sl m = .ok x := by
    rw [← (C35_complete hr).1] at hm
    cases m with
    | none => exact ⟨none, rfl⟩
    | some x =>
      have := hm x rfl
      unfold SecureLayer.serializeOpt
      dsimp only
      cases h2 : serialize c x sl.minimal.config.messageFormat with
      | ok b => exact ⟨_, rfl⟩
      | err e => rw [h2] at this; cases this
      | panic p => rw [h2] at this; cases this
  obtain ⟨x, h1⟩ := h1
  unfold SecureLayer.writeConnectSer
  rw [h1]
  exact connectRaw_answer hr hs hc _ hw

/-- **C71, ACK in complete mode.** -/
theorem C71_ack_complete (hr : CRun env f st h sl) (hs : CSmooth h) (hc : h.any CEvent.clones = false) {w : BufW}
    (hw : w.sink.script = []) :
    (∀ d, (sl.writeAckBin env d w).2.2 = ackAnswer (Progress.ofC h) (cended h)) ∧
    ∀ (c : Codec M) (m : Option M), (∀ x, m = some x → (serialize c x (inForce st.config h).messageFormat).isOk = true) →
      (sl.writeAckSer env c m w).2.2 = ackAnswer (Progress.ofC h) (cended h) := by
  refine ⟨fun d => ackRaw_answer hr hs hc _ hw, fun c m hm => ?_⟩
  have h1 : ∃ x, SecureLayer.serializeOpt env.cr c sl m = .ok x := by
    rw [← (C35_complete hr).1] at hm
    cases m with
    | none => exact ⟨none, rfl⟩
    | some x =>
      have := hm x rfl
      unfold SecureLayer.serializeOpt
      dsimp only
      cases h2 : serialize c x sl.minimal.config.messageFormat with
      | ok b => exact ⟨_, rfl⟩
      | err e => rw [h2] at this; cases this
      | panic p => rw [h2] at this; cases this
  obtain ⟨x, h1⟩ := h1
  unfold SecureLayer.writeAckSer
  rw [h1]
  exact ackRaw_answer hr hs hc _ hw

/-- **C71, user messages in complete mode.** -/
theorem C71_write_complete (hr : CRun env f st h sl) (hs : CSmooth h) {w : BufW} (hw : w.sink.script = [])
    (hn : env.overflowChecks = false ∨ h.countP CEvent.writesUser + 1 < 2 ^ 64) :
    (∀ d, (sl.writeBin env d w).2.2 = writeAnswer (Progress.ofC h) (cended h)) ∧
    ∀ (c : Codec M) (m : M), (serialize c m (inForce st.config h).messageFormat).isOk = true →
      (sl.writeSer env c m w).2.2 = writeAnswer (Progress.ofC h) (cended h) := by
  refine ⟨fun d => writeRaw_answer hr hs _ hw hn, fun c m hm => ?_⟩
  rw [← (C35_complete hr).1] at hm
  unfold SecureLayer.writeSer
  cases h2 : serialize c m sl.minimal.config.messageFormat <;> rw [h2] at hm <;>
    first | exact writeRaw_answer hr hs _ hw hn | cases hm

/-- **C71, cloning in complete mode.** -/
theorem C71_clone_complete (hr : CRun env f st h sl) (hs : CSmooth h) :
    unitRes sl.tryClone.2 = cloneAnswer (Progress.ofC h) (cended h) := by
  have hsu := csuccess_iff hr hs
  unfold cloneAnswer SecureLayer.tryClone Layer.tryClone
  by_cases h1 : sl.minimal.status = .success
  · obtain ⟨h2, h3⟩ := hsu.mp h1
    rw [if_pos h1, h2, h3]; rfl
  · rw [if_neg h1, if_neg]
    · rfl
    · intro h2
      simp only [Bool.and_eq_true, Bool.not_eq_true'] at h2
      exact h1 (hsu.mpr h2)

/-- **C71, configuration in complete mode.** -/
theorem C71_config_complete (hr : CRun env f st h sl) (c : Config) :
    (sl.changeConfig c).2 = configAnswer (h.any CEvent.clones) := by
  obtain ⟨-, h1, h2⟩ := C35_complete hr
  have hm : h.any CEvent.clones = true ↔ CEvent.clone (.ok ()) ∈ h := by
    rw [List.any_eq_true]
    constructor
    · rintro ⟨e, he, h3⟩
      cases e with
      | clone r =>
        cases r with
        | ok u => exact he
        | _ => cases h3
      | _ => cases h3
    · exact fun h => ⟨_, h, rfl⟩
  unfold configAnswer
  cases hx : h.any CEvent.clones with
  | true => rw [h2 (hm.mp hx)]; rfl
  | false => rw [h1 (fun h => by rw [hm.mpr h] at hx; cases hx)]; rfl

end

/-! ## Concrete cases -/

/-- Toy party B has sent both messages and waits for A's ACK, which arrives later: the hypotheses of C71 for the minimal mode
hold in both states. -/
example (oc : Bool) : ∃ h e, Run (Toy.env oc) Toy.stB h Toy.b3 ∧ Smooth h ∧ Progress.of h = ⟨true, true, true, false⟩ ∧
    ended h = false ∧ (Toy.b3.writeMessage (Toy.env oc) [5] Toy.sink).2.2 = .err .negoMustHaveBeenSuccessful ∧
    Run (Toy.env oc) Toy.stB (h ++ [e]) Toy.b4 ∧ Smooth (h ++ [e]) ∧ (Progress.of (h ++ [e])).complete = true ∧
    ended (h ++ [e]) = false ∧ (Toy.b4.writeMessage (Toy.env oc) [5] Toy.sink).2.2 = .ok () ∧ Toy.sink.sink.script = [] := by
  have s1 : (Toy.layer0 [2] none).read (Toy.env oc) (Toy.sign Toy.seedA Toy.conA) =
      (Toy.b1, .ok (some (.connect [0, 0, 0, 0] Toy.pkA (some [7, 8])))) :=
    Prod.ext (by cases oc <;> decide +kernel) (by cases oc <;> decide +kernel)
  have s4 : Toy.b3.read (Toy.env oc) (Toy.sign Toy.seedA Toy.ackA) = (Toy.b4, .ok (some (.ack (some [9])))) :=
    Prod.ext (by cases oc <;> decide +kernel) (by cases oc <;> decide +kernel)
  have r1 := (Toy.run0 oc [2] none).call (.read (Toy.sign Toy.seedA Toy.conA))
  simp only [step, s1] at r1
  have r2 := r1.call (.connect Toy.pkB none)
  rw [show (step (Toy.env oc) Toy.b1 (.connect Toy.pkB none)) = (Toy.b2, .connect Toy.pkB none (.ok Toy.conB)) from
    Prod.ext (by cases oc <;> decide +kernel) (by cases oc <;> decide +kernel)] at r2
  have r3 := r2.call (.ack none)
  rw [show (step (Toy.env oc) Toy.b2 (.ack none)) = (Toy.b3, .ack none (.ok Toy.ackB)) from
    Prod.ext (by cases oc <;> decide +kernel) (by cases oc <;> decide +kernel)] at r3
  have r4 := r3.call (.read (Toy.sign Toy.seedA Toy.ackA))
  simp only [step, s4] at r4
  have sm : ∀ h : List Event, (∀ e ∈ h, ¬ e.hides) → Smooth h := by
    intro h hn h1 e h2 hh he
    exact absurd he (hn e (by simp [hh]))
  refine ⟨_, _, r3, sm _ ?_, ?_, ?_, ?_, r4, sm _ ?_, ?_, ?_, ?_, rfl⟩
  · simp [Event.hides, Event.panicked, Event.failedWith]
  · simp [Progress.of, deliveries, Event.createsConnect, Event.createsAck, Event.delivers, isConnect, isAck]
  · simp [ended, Event.ends]
  · cases oc <;> decide +kernel
  · simp [Event.hides, Event.panicked, Event.failedWith]
  · simp [Progress.of, Progress.complete, deliveries, Event.createsConnect, Event.createsAck, Event.delivers, isConnect, isAck]
  · simp [ended, Event.ends]
  · cases oc <;> decide +kernel

/-- The same in complete mode; an ACK that was not meant for B changes nothing. -/
example (oc : Bool) (f : Features) : ∃ (h : List (CEvent Unit)) (e : CEvent Unit),
    CRun (Toy.env oc) f Toy.cstB h (Toy.csB Toy.b3) ∧ CSmooth h ∧ CEvent.readBin Toy.cackB (.err (.recvInvalidMsg .invalidChallenge)) ∈ h ∧
    h.any CEvent.clones = false ∧ Progress.ofC h = ⟨true, true, true, false⟩ ∧ cended h = false ∧
    CRun (Toy.env oc) f Toy.cstB (h ++ [e]) (Toy.csB Toy.b4) ∧ CSmooth (h ++ [e]) ∧ (Progress.ofC (h ++ [e])).complete = true ∧
    cended (h ++ [e]) = false := by
  have s1 : (Toy.csB (Toy.layer0 [2] none)).readBin (Toy.env oc) Toy.cconA =
      (Toy.csB Toy.b1, .ok [.connect (some [7, 8]) Toy.pkA]) :=
    Prod.ext (by cases oc <;> decide +kernel) (by cases oc <;> decide +kernel)
  have s3 : (Toy.csB Toy.b3).readBin (Toy.env oc) Toy.cackB = (Toy.csB Toy.b3, .err (.recvInvalidMsg .invalidChallenge)) :=
    Prod.ext (by cases oc <;> decide +kernel) (by cases oc <;> decide +kernel)
  have s4 : (Toy.csB Toy.b3).readBin (Toy.env oc) Toy.cackA = (Toy.csB Toy.b4, .ok [.ack (some [])]) :=
    Prod.ext (by cases oc <;> decide +kernel) (by cases oc <;> decide +kernel)
  have r0 : CRun (M := Unit) (Toy.env oc) f Toy.cstB [] (Toy.csB (Toy.layer0 [2] none)) := .init rfl
  have r1 := r0.call (.readBin Toy.cconA)
  simp only [cstep, s1] at r1
  have r2 := r1.call (.connectBin none Toy.sink)
  rw [show (cstep (M := Unit) (Toy.env oc) f (Toy.csB Toy.b1) (.connectBin none Toy.sink)) =
    (Toy.csB Toy.b2, .connectBin none Toy.sink _ (.ok ())) from rfl] at r2
  have r3 := r2.call (.ackBin none Toy.sink)
  rw [show (cstep (M := Unit) (Toy.env oc) f (Toy.csB Toy.b2) (.ackBin none Toy.sink)) =
    (Toy.csB Toy.b3, .ackBin none Toy.sink _ (.ok ())) from rfl] at r3
  have r3 := r3.call (.readBin Toy.cackB)
  simp only [cstep, s3] at r3
  have r4 := r3.call (.readBin Toy.cackA)
  simp only [cstep, s4] at r4
  have sm : ∀ h : List (CEvent Unit), h.any CEvent.keeps = false → (∀ e ∈ h, ¬ e.hides false) → CSmooth h := by
    intro h hk hn h1 e h2 hh he
    rw [hh, List.any_append, Bool.or_eq_false_iff] at hk
    rw [hk.1] at he
    exact absurd he (hn e (by simp [hh]))
  refine ⟨_, _, r3, sm _ ?_ ?_, by simp, ?_, ?_, ?_, r4, sm _ ?_ ?_, ?_, ?_⟩
  · simp [CEvent.keeps]
  · simp [CEvent.hides, hidingAnswer, undecodable]
  · simp [CEvent.clones]
  · simp [Progress.ofC, ckinds, CEvent.kinds, CEvent.consumesConnect, CEvent.consumesAck, BinMessage.kind]
  · simp [cended, CEvent.ends, nonFatal]
  · simp [CEvent.keeps]
  · simp [CEvent.hides, hidingAnswer, undecodable]
  · simp [Progress.ofC, Progress.complete, ckinds, CEvent.kinds, CEvent.consumesConnect, CEvent.consumesAck, BinMessage.kind]
  · simp [cended, CEvent.ends, nonFatal]

end Pkstl
