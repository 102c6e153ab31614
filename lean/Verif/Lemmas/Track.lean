import Verif.Lemmas.Window
import Verif.Spec.Window
/- The list of delivered user messages along a history. -/
namespace Pkstl
open Spec

theorem cipherOf_eq (cr : Crypto) (k : SecretKey) (n : Nat) (p : Bytes) :
    cipherOf cr k n p = aeadSeal cr k (userPlain cr n p) := rfl

/-- `Ls` lists, call by call, the delivered user messages with their numbers. -/
structure Track (env : Env) (h : List Event) (s : Layer) (Ls : List (List (Nat × Bytes))) : Prop where
  account : List.Forall₂ (Carries env.cr s.secret) h Ls
  acc : Acc env s Ls.flatten
  origin : ∀ x ∈ Ls.flatten, ∃ k, s.secret = some k ∧ cipherOf env.cr k x.1 x.2 ∈ inputs h
  regular : (∀ e ∈ h, e.regular) → ∀ m, s.seen m → ∃ x ∈ Ls.flatten, x.1 = m

theorem Spec.Carries.mono {cr : Crypto} {sec sec' : Option SecretKey} {e : Event} {l : List (Nat × Bytes)}
    (h : Carries cr sec e l) (hs : ∀ k, sec = some k → sec' = some k) : Carries cr sec' e l :=
  ⟨h.1, h.2.1, fun inc r he x hx => by obtain ⟨k, h1, h2⟩ := h.2.2 inc r he x hx; exact ⟨k, hs k h1, h2⟩⟩

theorem account_snoc {cr : Crypto} {sec sec' : Option SecretKey} {h : List Event} {e : Event}
    {Ls : List (List (Nat × Bytes))} {l : List (Nat × Bytes)} (ha : List.Forall₂ (Carries cr sec) h Ls)
    (hs : ∀ k, sec = some k → sec' = some k) (he : Carries cr sec' e l) :
    List.Forall₂ (Carries cr sec') (h ++ [e]) (Ls ++ [l]) :=
  List.rel_append (ha.imp fun _ _ h => h.mono hs) (.cons he .nil)

theorem Spec.Carries.nil {cr : Crypto} {sec : Option SecretKey} {e : Event} (h : userPayloads e.delivers = []) :
    Carries cr sec e [] := ⟨by rw [h]; rfl, by simp, fun _ _ _ _ hx => absurd hx (by simp)⟩

theorem flatten_snoc_nil (Ls : List (List (Nat × Bytes))) : (Ls ++ [[]]).flatten = Ls.flatten := by simp

theorem flatten_snoc (Ls : List (List (Nat × Bytes))) (l : List (Nat × Bytes)) :
    (Ls ++ [l]).flatten = Ls.flatten ++ l := by simp

theorem userPayloads_append (a b : List Message) : userPayloads (a ++ b) = userPayloads a ++ userPayloads b := by
  simp [userPayloads]

theorem userPayloads_msgOf (L : List (Nat × Bytes)) : userPayloads (L.map msgOf) = L.map fun x => present x.2 := by
  induction L with
  | nil => rfl
  | cons x L ih => simp only [List.map_cons]; rw [← ih]; rfl

theorem deliveries_append (h h' : List Event) : deliveries (h ++ h') = deliveries h ++ deliveries h' := by
  simp [deliveries]

theorem deliveries_one (e : Event) : deliveries [e] = e.delivers := by simp [deliveries]

section
variable {env : Env} {st : Start} {h : List Event} {s : Layer}

theorem used_of_create {s : Layer} (h : Layer.create env.cr st.config st.expected (some st.random) = .ok s) :
    s.used = 0 ∧ s.tmpStack = [] ∧ ∀ m, ¬ s.seen m := by
  simp only [Layer.create, EphemeralKeyPair.generate, Res.bind_ok, Res.ok.injEq] at h
  subst h
  exact ⟨rfl, rfl, by simp [Layer.seen]⟩

theorem read_nonuser_window (env : Env) (s : Layer) (inc : Bytes) (chk : Bool)
    (hno : ∀ d n, readerRead env s.secret inc chk = .ok d → d.msgTypeHeaders ≠ .userMsg n) :
    (s.readInner env inc chk).1.nextNonceExpected = s.nextNonceExpected ∧
    (s.readInner env inc chk).1.orphanNonces = s.orphanNonces ∧
    (s.readInner env inc chk).1.tmpStack = s.tmpStack ∧
    ∀ d, (s.readInner env inc chk).2 ≠ .ok (some (.message d)) := by
  have hcase := readInner_case env s inc chk
  generalize (s.readInner env inc chk).1 = s' at hcase
  generalize (s.readInner env inc chk).2 = r at hcase
  have hg : ∀ {d}, readerRead env s.secret inc chk = .ok d → ∀ x, Layer.getMessage d ≠ .ok (some (.message x)) := by
    intro d hd x hx
    obtain ⟨-, -, h3⟩ := getMessage_eq_ok hx
    rw [fromBytes_eq] at h3
    cases hh : d.msgTypeHeaders with
    | userMsg n => exact hno d n hd hh
    | connect _ _ _ => rw [hh] at h3; simp [reported] at h3
    | ack _ => rw [hh] at h3; simp [reported] at h3
  cases hcase with
  | userReplay hp hh => exact absurd hh (hno _ _ hp)
  | userLate hp hh => exact absurd hh (hno _ _ hp)
  | userStacked hp hh => exact absurd hh (hno _ _ hp)
  | userShort hp hh => exact absurd hh (hno _ _ hp)
  | userBadHash hp hh => exact absurd hh (hno _ _ hp)
  | userNonceErr hp hh => exact absurd hh (hno _ _ hp)
  | userNoncePanic hp hh => exact absurd hh (hno _ _ hp)
  | userOk hp hh => exact absurd hh (hno _ _ hp)
  | connectOk hp => exact ⟨rfl, rfl, rfl, hg hp⟩
  | ackOk hp => exact ⟨rfl, rfl, rfl, hg hp⟩
  | connectNoKp hp =>
    refine ⟨rfl, rfl, rfl, ?_⟩
    intro d
    split
    · exact hg hp d
    · simp
  | _ => exact ⟨rfl, rfl, rfl, by simp [invalidMsg]⟩

/-- The bound on consumed numbers. -/
theorem used_le (hr : Run env st h s) :
    (env.overflowChecks = true ∨ (inputs h).length < u64Size) →
    s.tmpStack.length + s.used ≤ (inputs h).length ∧ ∃ Ls, Track env h s Ls := by
  induction hr with
  | init h =>
    intro _
    obtain ⟨h1, h2, h3⟩ := used_of_create h
    refine ⟨by rw [h1, h2]; simp, [], ⟨.nil, ⟨by simp, .inl (by simp)⟩, by simp, ?_⟩⟩
    intro _ m hm
    exact absurd hm (h3 m)
  | @cloned h s c hr hc ih =>
    intro hnw
    have hi : inputs (h ++ [.clone (.ok ())]) = inputs h := by simp [inputs]
    rw [hi] at hnw
    obtain ⟨i1, Ls, i2⟩ := ih hnw
    obtain ⟨-, rfl⟩ := tryClone_ok hc
    refine ⟨by rw [hi]; exact i1, Ls ++ [[]],
      ⟨account_snoc i2.account (fun _ h => h) (.nil rfl), ?_, ?_, ?_⟩⟩
    · rw [flatten_snoc_nil]; exact i2.acc.congr rfl rfl
    · rw [hi, flatten_snoc_nil]; exact i2.origin
    · intro hreg
      rw [flatten_snoc_nil]
      exact i2.regular fun e he => hreg e (by simp [he])
  | @call h s hr op ih =>
    intro hnw
    have hw := Wf.of_run hr
    have hle : (inputs h).length ≤ (inputs (h ++ [(step env s op).2])).length := by
      rw [inputs_append]; simp
    obtain ⟨i1, Ls, i2⟩ := ih (by rcases hnw with h | h; exact .inl h; right; omega)
    have hsf := (stepFrame hw op).secret
    have hin : ∀ x ∈ inputs h, x ∈ inputs (h ++ [(step env s op).2]) := by
      intro x hx; rw [inputs_append]; simp [hx]
    have horig : ∀ x ∈ Ls.flatten, ∃ k, (step env s op).1.secret = some k ∧
        cipherOf env.cr k x.1 x.2 ∈ inputs (h ++ [(step env s op).2]) := by
      intro x hx
      obtain ⟨k, h1, h2⟩ := i2.origin x hx
      exact ⟨k, hsf k h1, hin _ h2⟩
    -- calls that leave window and stack alone and deliver no user message
    have same : (step env s op).1.nextNonceExpected = s.nextNonceExpected →
        (step env s op).1.orphanNonces = s.orphanNonces →
        (step env s op).1.tmpStack.length ≤ s.tmpStack.length →
        (∀ m ∈ (step env s op).2.delivers, ∀ d, m ≠ .message d) →
        (step env s op).1.tmpStack.length + (step env s op).1.used ≤
          (inputs (h ++ [(step env s op).2])).length ∧ ∃ Ls, Track env (h ++ [(step env s op).2]) (step env s op).1 Ls := by
      intro h1 h2 h3 h4
      refine ⟨?_, Ls ++ [[]], ⟨account_snoc i2.account hsf (.nil ?_), ?_, ?_, ?_⟩⟩
      · unfold Layer.used at i1 ⊢
        rw [h1, h2]; omega
      · have : userPayloads (step env s op).2.delivers = [] := by
          unfold userPayloads
          rw [List.filterMap_eq_nil_iff]
          intro m hm
          have := h4 m hm
          cases m with
          | message d => exact absurd rfl (this d)
          | connect _ _ _ => rfl
          | ack _ => rfl
        exact this
      · rw [flatten_snoc_nil]; exact i2.acc.congr h1 h2
      · rw [flatten_snoc_nil]; exact horig
      · intro hreg m hm
        rw [flatten_snoc_nil]
        apply i2.regular (fun e he => hreg e (by simp [he]))
        unfold Layer.seen at hm ⊢
        rw [h1, h2] at hm
        exact hm
    cases op with
    | read inc =>
      by_cases hu : ∃ d n, readerRead env s.secret inc true = .ok d ∧ d.msgTypeHeaders = .userMsg n
      swap
      · obtain ⟨a1, a2, a3, a4⟩ := read_nonuser_window env s inc true
          (fun d n h1 h2 => hu ⟨d, n, h1, h2⟩)
        refine same a1 a2 (le_of_eq (congrArg List.length a3)) ?_
        intro m hm d hd
        subst hd
        refine a4 d ?_
        have hm : Message.message d ∈ Event.delivers (.read inc (s.readInner env inc true).2) := hm
        rcases hq : (s.readInner env inc true).2 with (_ | m) | e | p <;> rw [hq] at hm <;>
          simp [Event.delivers] at hm
        rw [hm]
      · obtain ⟨d, n, hrd, hh⟩ := hu
        have he : s.readInner env inc true = s.readUser env d n := by
          unfold Layer.readInner; rw [hrd]; dsimp only; rw [hh]
        obtain ⟨k, hk, hinc, hm, hpc⟩ := user_sealed hrd hh
        have hinp : inputs (h ++ [(step env s (.read inc)).2]) = inputs h ++ [inc] := by
          simp [inputs, step]
        have hnw' : env.overflowChecks = true ∨ s.used + 1 < u64Size := by
          rcases hnw with hnw | hnw
          · exact .inl hnw
          · right
            rw [hinp] at hnw
            simp at hnw; omega
        have hstep : step env s (.read inc) = ((s.readUser env d n).1, .read inc (s.readUser env d n).2) := by
          rw [← he]; rfl
        rw [hinp]
        rw [hstep] at horig ⊢
        have hsf' : ∀ k, s.secret = some k → (s.readUser env d n).1.secret = some k :=
          fun k h => (readUser_frame env s d n).secret.trans h
        rcases readUser_acc hw.win i2.acc hpc hh hnw' with
          ⟨payload, b1, b2, b3, b4, b5, b6, b7, b8, b9, b10, b11⟩ | ⟨b1, b2, b3, b4, b5, b6, b7⟩
        · refine ⟨by simp only [List.length_append, List.length_singleton]; rw [b10, b8]; omega,
            Ls ++ [[(n, payload)]], ⟨account_snoc i2.account hsf' ⟨?_, ?_, ?_⟩, ?_, ?_, ?_⟩⟩
          · rw [b1]
            simp [Event.delivers, userPayloads]
          · intro x hx
            simp only [List.mem_singleton] at hx
            subst hx
            exact b3
          · intro inc' r' he' x hx
            simp only [Event.read.injEq] at he'
            simp only [List.mem_singleton] at hx
            obtain ⟨rfl, -⟩ := he'
            subst hx
            exact ⟨k, hsf' k hk, by rw [cipherOf_eq, ← b2, ← hinc]⟩
          · rw [flatten_snoc]; exact b7
          · rw [flatten_snoc]
            intro x hx
            rcases List.mem_append.mp hx with hx | hx
            · obtain ⟨k', h1, h2⟩ := horig x hx
              exact ⟨k', h1, h2⟩
            · simp only [List.mem_singleton] at hx
              subst hx
              refine ⟨k, (readUser_frame env s d n).secret.trans hk, ?_⟩
              rw [cipherOf_eq, ← b2, ← hinc]
              simp [inputs]
          · rw [flatten_snoc]
            intro hreg m hm
            rcases (b11 m).mp hm with hm | hm
            · obtain ⟨x, hx, hxm⟩ := i2.regular (fun e he => hreg e (by simp [he])) m hm
              exact ⟨x, by simp [hx], hxm⟩
            · exact ⟨(n, payload), by simp, hm.symm⟩
        · refine ⟨by simp only [List.length_append, List.length_singleton]; omega, Ls ++ [[]],
            ⟨account_snoc i2.account hsf' (.nil ?_), by rw [flatten_snoc_nil]; exact b2,
              by rw [flatten_snoc_nil]; exact horig, ?_⟩⟩
          · rcases hq : (s.readUser env d n).2 with (_ | m) | e | p
            · simp [Event.delivers, userPayloads]
            · exact absurd hq (b1 m)
            · simp [Event.delivers, userPayloads]
            · simp [Event.delivers, userPayloads]
          · rw [flatten_snoc_nil]
            intro hreg m hm
            have hreg' := hreg (.read inc (s.readUser env d n).2) (by simp)
            apply i2.regular (fun e he => hreg e (by simp [he]))
            rcases hq : (s.readUser env d n).2 with (_ | m) | e | p
            · obtain ⟨-, h2⟩ := b6 hq
              rw [h2] at hm
              exact hm
            · exact absurd hq (b1 _)
            · exact (b7 e hq m).mp hm
            · rw [hq] at hreg'; exact False.elim hreg'
    | takeAck =>
      rcases takeAck_cases env s with ⟨-, he⟩ | ⟨b, hb, he⟩
      · apply same
        · simp only [step, he]
        · simp only [step, he]
        · simp only [step, he]; omega
        · simp [step, he, Event.delivers]
      · obtain ⟨hm, d0, hp0, hh0⟩ := hw.ackP b hb
        obtain ⟨a1, a2, a3, a4⟩ := read_nonuser_window env { s with ackMsgRecvTooEarly := none } b true (by
          intro d n h1 h2
          rw [readerRead_clear hm, hp0] at h1
          simp only [Res.ok.injEq] at h1
          rw [← h1, hh0] at h2
          simp at h2)
        have hst : step env s .takeAck = ((Layer.readInner env { s with ackMsgRecvTooEarly := none } b true).1,
            .takeAck (Layer.readInner env { s with ackMsgRecvTooEarly := none } b true).2) := by
          simp only [step, he]
        apply same
        · rw [hst]; exact a1
        · rw [hst]; exact a2
        · rw [hst]; exact le_of_eq (congrArg List.length a3)
        · rw [hst]
          intro m hm d hd
          subst hd
          refine a4 d ?_
          rcases hq : (Layer.readInner env { s with ackMsgRecvTooEarly := none } b true).2 with (_ | m) | e | p <;>
            rw [hq] at hm <;> simp [Event.delivers] at hm
          rw [hm]
    | drain =>
      have hinp : inputs (h ++ [(step env s .drain).2]) = inputs h := by simp [inputs, step]
      rw [hinp] at hnw horig ⊢
      have hnw' : env.overflowChecks = true ∨ s.used + s.tmpStack.length < u64Size := by
        rcases hnw with hnw | hnw
        · exact .inl hnw
        · right; omega
      obtain ⟨c1, c2, c3, c4⟩ := drainLoop_acc (s := { s with tmpStack := [] }) (L := Ls.flatten) s.tmpStack [] hw.stackP
        (hw.win.congr rfl rfl) (i2.acc.congr rfl rfl) hnw'
      have hst : step env s .drain = ((Layer.drainLoop env { s with tmpStack := [] } s.tmpStack []).1,
          .drain (Layer.drainLoop env { s with tmpStack := [] } s.tmpStack []).2) := rfl
      rw [hst] at horig ⊢
      have hsf' : ∀ k, s.secret = some k →
          (Layer.drainLoop env { s with tmpStack := [] } s.tmpStack []).1.secret = some k :=
        fun k h => (drain_frame hw).secret.trans h
      have c2' : (Layer.drainLoop env { s with tmpStack := [] } s.tmpStack []).1.tmpStack.length +
          (Layer.drainLoop env { s with tmpStack := [] } s.tmpStack []).1.used ≤ 0 + s.used + s.tmpStack.length := c2
      refine ⟨by dsimp only; omega, ?_⟩
      rcases hq : (Layer.drainLoop env { s with tmpStack := [] } s.tmpStack []).2 with l | e | p
      · obtain ⟨L', d1, d2, d3, d4⟩ := c3 l hq
        refine ⟨Ls ++ [L'], ⟨account_snoc i2.account hsf' ⟨?_, fun x hx => (d3 x hx).2, ?_⟩, by rw [flatten_snoc]; exact d2, ?_, ?_⟩⟩
        · simp only [List.nil_append] at d1
          simp only [Event.delivers, d1, userPayloads_msgOf]
        · intro inc r he
          simp at he
        · rw [flatten_snoc]
          intro x hx
          rcases List.mem_append.mp hx with hx | hx
          · obtain ⟨k, h1, h2⟩ := horig x hx
            exact ⟨k, h1, by rw [inputs_append]; simp [h2]⟩
          · obtain ⟨k, h1, h2⟩ := (Prov.of_run hr).stack _ (d3 x hx).1
            refine ⟨k, ?_, ?_⟩
            · exact (drain_frame hw).secret.trans h1
            · rw [cipherOf_eq, inputs_append]; simp [h2]
        · rw [flatten_snoc]
          intro hreg m hm
          rcases (d4 m).mp hm with hm | ⟨x, hx, hxm⟩
          · obtain ⟨x, hx, hxm⟩ := i2.regular (fun e he => hreg e (by simp [he])) m hm
            exact ⟨x, by simp [hx], hxm⟩
          · exact ⟨x, by simp [hx], hxm⟩
      all_goals
        refine ⟨Ls ++ [[]], ⟨account_snoc i2.account hsf' (.nil rfl), by rw [flatten_snoc_nil]; exact c4, ?_, ?_⟩⟩
        · rw [flatten_snoc_nil]
          intro x hx
          obtain ⟨k, h1, h2⟩ := horig x hx
          exact ⟨k, h1, by rw [inputs_append]; simp [h2]⟩
        · intro hreg
          exact False.elim (hreg _ (List.mem_append_right _ (List.mem_singleton.mpr rfl)))
    | connect pk d =>
      rcases createConnect_cases env s pk d with ⟨rem, -, he⟩ | ⟨-, he⟩ <;>
      · apply same
        · simp only [step, he]
        · simp only [step, he]
        · simp only [step, he]; omega
        · simp [step, Event.delivers]
    | ack d =>
      rcases createAck_cases env s d with ⟨rem, -, he⟩ | ⟨-, he⟩ <;>
      · apply same
        · simp only [step, he]
        · simp only [step, he]
        · simp only [step, he]; omega
        · simp [step, Event.delivers]
    | write d w =>
      rcases writeMessage_cases env s d w with ⟨-, he⟩ | ⟨_, _, -, he⟩ | ⟨-, -, he⟩ |
          ⟨hs, k, hk, ⟨w', e, -, he⟩ | ⟨w', -, ⟨n, hn, he⟩ | ⟨-, he⟩⟩⟩ <;>
      · apply same
        · simp only [step, he]
        · simp only [step, he]
        · simp only [step, he]; omega
        · simp [step, Event.delivers]
    | clone =>
      apply same
      · simp only [step, Layer.tryClone]; split <;> rfl
      · simp only [step, Layer.tryClone]; split <;> rfl
      · simp only [step, Layer.tryClone]; split <;> simp
      · simp [step, Event.delivers]
    | config c =>
      apply same
      · simp only [step, Layer.changeConfig]; split <;> rfl
      · simp only [step, Layer.changeConfig]; split <;> rfl
      · simp only [step, Layer.changeConfig]; split <;> simp
      · simp [step, Event.delivers]

end
end Pkstl
