import Verif.Lemmas.Trace
import Verif.Lemmas.WriteEval
import Verif.Lemmas.Eval
import Verif.Spec.ToySession
/- C07–C10: the negotiation as seen in histories. -/
namespace Pkstl
open Spec

/-- What the negotiation status says about the history. -/
structure Nego (cr : Crypto) (h : List Event) (a : Status) : Prop where
  cc0 : ∀ rem, a = .ongoing .created rem → h.countP Event.createsConnect = 0
  cc1 : h.countP Event.createsConnect ≤ 1
  ca0 : ∀ loc rem, a = .ongoing loc rem → rem ≠ .ackMsgSent → h.countP Event.createsAck = 0
  ca1 : h.countP Event.createsAck ≤ 1
  dc0 : ∀ loc, a = .ongoing loc .waitConnectMsg → (deliveries h).countP isConnect = 0
  dc1 : (deliveries h).countP isConnect ≤ 1
  da0 : ∀ loc rem, a = .ongoing loc rem → loc ≠ .validAckMsgReceived → (deliveries h).countP isAck = 0
  da1 : (deliveries h).countP isAck ≤ 1
  ecc : ((∃ loc rem, a = .ongoing loc rem ∧ loc ≠ .created) ∨ a = .success) →
    ∃ e ∈ h, e.createsConnect = true
  eca : ((∃ loc, a = .ongoing loc .ackMsgSent) ∨ a = .success) → ∃ e ∈ h, e.createsAck = true
  eac : ((∃ loc rem, a = .ongoing loc rem ∧ rem ≠ .waitConnectMsg) ∨ a = .success) →
    ∃ e ∈ h, e.acceptsConnect cr
  eaa : ((∃ rem, a = .ongoing .validAckMsgReceived rem) ∨ a = .success) → ∃ e ∈ h, e.acceptsAck cr
  ord : ∀ h1 e h2, h = h1 ++ e :: h2 → e.createsAck = true → ∃ e' ∈ h1, e'.acceptsConnect cr
  ord2 : ∀ h1 e h2, h = h1 ++ e :: h2 → (∃ m ∈ e.delivers, isAck m = true) →
    ∃ e' ∈ h1, e'.createsConnect = true

theorem split_snoc {α : Type} {h h1 h2 : List α} {x e : α} (heq : h ++ [x] = h1 ++ e :: h2) :
    (h1 = h ∧ e = x ∧ h2 = []) ∨ ∃ h3, h = h1 ++ e :: h3 := by
  rcases List.eq_nil_or_concat h2 with rfl | ⟨l, y, rfl⟩
  · obtain ⟨h3, h4⟩ := List.append_inj' heq rfl
    left; simp at h4; exact ⟨h3.symm, h4.symm, rfl⟩
  · right
    rw [List.concat_eq_append, ← List.cons_append, ← List.append_assoc] at heq
    exact ⟨l, (List.append_inj' heq rfl).1⟩

theorem deliveries_snoc (h : List Event) (e : Event) : deliveries (h ++ [e]) = deliveries h ++ e.delivers := by
  simp [deliveries]

theorem acceptsConnect_noCreate {cr : Crypto} {e : Event} (h : e.acceptsConnect cr) :
    e.createsConnect = false ∧ e.createsAck = false := by
  cases e <;> first | exact ⟨rfl, rfl⟩ | exact False.elim h

theorem acceptsAck_noCreate {cr : Crypto} {e : Event} (h : e.acceptsAck cr) :
    e.createsConnect = false ∧ e.createsAck = false := by
  cases e <;> first | exact ⟨rfl, rfl⟩ | exact False.elim h

theorem countP_ack_zero {l : List Message} (h : ∀ m ∈ l, isConnect m = true) : l.countP isAck = 0 := by
  rw [List.countP_eq_zero]
  intro m hm
  have := h m hm
  cases m <;> simp_all [isConnect, isAck]

theorem countP_connect_zero {l : List Message} (h : ∀ m ∈ l, isAck m = true) : l.countP isConnect = 0 := by
  rw [List.countP_eq_zero]
  intro m hm
  have := h m hm
  cases m <;> simp_all [isConnect, isAck]

theorem Nego.step {cr : Crypto} {h : List Event} {a b : Status} {e : Event} (hn : Nego cr h a)
    (he : Effect cr a e b) : Nego cr (h ++ [e]) b := by
  have ord : (e.createsAck = true → ∃ e' ∈ h, e'.acceptsConnect cr) →
      ∀ h1 e' h2, h ++ [e] = h1 ++ e' :: h2 → e'.createsAck = true → ∃ e' ∈ h1, e'.acceptsConnect cr := by
    intro hx h1 e' h2 heq hc
    rcases split_snoc heq with ⟨rfl, rfl, -⟩ | ⟨h3, h4⟩
    · exact hx hc
    · exact hn.ord _ _ _ h4 hc
  have ord2 : ((∃ m ∈ e.delivers, isAck m = true) → ∃ e' ∈ h, e'.createsConnect = true) →
      ∀ h1 e' h2, h ++ [e] = h1 ++ e' :: h2 → (∃ m ∈ e'.delivers, isAck m = true) →
        ∃ e' ∈ h1, e'.createsConnect = true := by
    intro hx h1 e' h2 heq hc
    rcases split_snoc heq with ⟨rfl, rfl, -⟩ | ⟨h3, h4⟩
    · exact hx hc
    · exact hn.ord2 _ _ _ h4 hc
  have lift : ∀ {P : Event → Prop}, (∃ x ∈ h, P x) → ∃ x ∈ h ++ [e], P x := by
    rintro P ⟨x, h1, h2⟩
    exact ⟨x, by simp [h1], h2⟩
  cases he with
  | quiet hb h1 h2 h3 =>
    have hc : e.delivers.countP isConnect = 0 := by
      rw [List.countP_eq_zero]
      intro m hm
      obtain ⟨d, rfl, -⟩ := h3 m hm
      simp [isConnect]
    have ha : e.delivers.countP isAck = 0 := by
      rw [List.countP_eq_zero]
      intro m hm
      obtain ⟨d, rfl, -⟩ := h3 m hm
      simp [isAck]
    have hna : ¬ ∃ m ∈ e.delivers, isAck m = true := by
      rintro ⟨m, hm, hx⟩
      exact List.countP_eq_zero.mp ha m hm hx
    rcases hb with rfl | rfl
    · exact {
        cc0 := fun rem hr => by simp [h1, hn.cc0 rem hr]
        cc1 := by simpa [h1] using hn.cc1
        ca0 := fun loc rem hr hne => by simp [h2, hn.ca0 loc rem hr hne]
        ca1 := by simpa [h2] using hn.ca1
        dc0 := fun loc hr => by rw [deliveries_snoc, List.countP_append, hc, hn.dc0 loc hr]
        dc1 := by rw [deliveries_snoc, List.countP_append, hc]; exact hn.dc1
        da0 := fun loc rem hr hne => by rw [deliveries_snoc, List.countP_append, ha, hn.da0 loc rem hr hne]
        da1 := by rw [deliveries_snoc, List.countP_append, ha]; exact hn.da1
        ecc := fun hr => lift (hn.ecc hr)
        eca := fun hr => lift (hn.eca hr)
        eac := fun hr => lift (hn.eac hr)
        eaa := fun hr => lift (hn.eaa hr)
        ord := ord (by simp [h2])
        ord2 := ord2 fun h => absurd h hna }
    · exact {
        cc0 := by simp
        cc1 := by simpa [h1] using hn.cc1
        ca0 := by simp
        ca1 := by simpa [h2] using hn.ca1
        dc0 := by simp
        dc1 := by rw [deliveries_snoc, List.countP_append, hc]; exact hn.dc1
        da0 := by simp
        da1 := by rw [deliveries_snoc, List.countP_append, ha]; exact hn.da1
        ecc := by simp
        eca := by simp
        eac := by simp
        eaa := by simp
        ord := ord (by simp [h2])
        ord2 := ord2 fun h => absurd h hna }
  | @createsConnect rem pk d b =>
    have hd : deliveries (h ++ [Event.connect pk d (.ok b)]) = deliveries h := by
      rw [deliveries_snoc]; simp [Event.delivers]
    exact {
      cc0 := by simp
      cc1 := by simp [hn.cc0 rem rfl, Event.createsConnect]
      ca0 := by
        intro loc rem' hr hne
        simp only [Status.ongoing.injEq] at hr
        simp [hn.ca0 _ rem rfl (hr.2 ▸ hne), Event.createsAck]
      ca1 := by simpa [Event.createsAck] using hn.ca1
      dc0 := by
        intro loc hr
        simp only [Status.ongoing.injEq] at hr
        rw [hd, hn.dc0 .created (by rw [hr.2])]
      dc1 := by rw [hd]; exact hn.dc1
      da0 := by
        intro loc rem' hr hne
        rw [hd]
        exact hn.da0 _ rem rfl (by simp)
      da1 := by rw [hd]; exact hn.da1
      ecc := fun _ => ⟨_, List.mem_append_right _ (List.mem_singleton.mpr rfl), rfl⟩
      eca := by
        rintro (⟨loc, hr⟩ | hr)
        · simp only [Status.ongoing.injEq] at hr
          exact lift (hn.eca (.inl ⟨.created, by rw [hr.2]⟩))
        · simp at hr
      eac := by
        rintro (⟨loc, rem', hr, hne⟩ | hr)
        · simp only [Status.ongoing.injEq] at hr
          exact lift (hn.eac (.inl ⟨_, _, rfl, hr.2 ▸ hne⟩))
        · simp at hr
      eaa := by simp
      ord := ord (by simp [Event.createsAck])
      ord2 := ord2 (by simp [Event.delivers]) }
  | @createsAck loc d b =>
    have hd : deliveries (h ++ [Event.ack d (.ok b)]) = deliveries h := by
      rw [deliveries_snoc]; simp [Event.delivers]
    have hcon := hn.eac (.inl ⟨_, _, rfl, by simp⟩)
    exact {
      cc0 := by
        intro rem hr
        split at hr
        · simp at hr
        · simp only [Status.ongoing.injEq] at hr
          simp [hn.cc0 _ (by rw [hr.1]), Event.createsConnect]
      cc1 := by simpa [Event.createsConnect] using hn.cc1
      ca0 := by
        intro l rem hr hne
        split at hr
        · simp at hr
        · simp only [Status.ongoing.injEq] at hr
          exact absurd hr.2.symm hne
      ca1 := by simp [hn.ca0 _ _ rfl (by simp), Event.createsAck]
      dc0 := by
        intro l hr
        split at hr <;> simp at hr
      dc1 := by rw [hd]; exact hn.dc1
      da0 := by
        intro l rem hr hne
        split at hr
        · simp at hr
        · simp only [Status.ongoing.injEq] at hr
          rw [hd]
          exact hn.da0 _ _ rfl (hr.1 ▸ hne)
      da1 := by rw [hd]; exact hn.da1
      ecc := by
        intro hr
        apply lift
        apply hn.ecc
        left
        refine ⟨_, _, rfl, ?_⟩
        rintro rfl
        simp at hr
      eca := fun _ => ⟨_, List.mem_append_right _ (List.mem_singleton.mpr rfl), rfl⟩
      eac := fun _ => lift hcon
      eaa := by
        intro hr
        apply lift
        apply hn.eaa
        left
        by_cases hl : loc = .validAckMsgReceived
        · exact ⟨_, by rw [hl]⟩
        · simp [hl] at hr
      ord := ord fun _ => hcon
      ord2 := ord2 (by simp [Event.delivers]) }
  | @acceptsConnect loc e h h3 h4 =>
    obtain ⟨hcc, hca⟩ := acceptsConnect_noCreate h
    have hna := countP_ack_zero h3
    have hc : e.delivers.countP isConnect ≤ 1 := Nat.le_trans List.countP_le_length h4
    exact {
      cc0 := by
        intro rem hr
        simp only [Status.ongoing.injEq] at hr
        simp [hcc, hn.cc0 _ (by rw [hr.1])]
      cc1 := by simpa [hcc] using hn.cc1
      ca0 := by
        intro l rem hr hne
        simp [hca, hn.ca0 _ _ rfl (by simp)]
      ca1 := by simpa [hca] using hn.ca1
      dc0 := by simp
      dc1 := by rw [deliveries_snoc, List.countP_append, hn.dc0 _ rfl]; omega
      da0 := by
        intro l rem hr hne
        simp only [Status.ongoing.injEq] at hr
        rw [deliveries_snoc, List.countP_append, hna, hn.da0 _ _ rfl (hr.1 ▸ hne)]
      da1 := by rw [deliveries_snoc, List.countP_append, hna]; exact hn.da1
      ecc := by
        rintro (⟨l, rem, hr, hne⟩ | hr)
        · simp only [Status.ongoing.injEq] at hr
          exact lift (hn.ecc (.inl ⟨_, _, rfl, hr.1 ▸ hne⟩))
        · simp at hr
      eca := by simp
      eac := fun _ => ⟨e, by simp, h⟩
      eaa := by
        rintro (⟨rem, hr⟩ | hr)
        · simp only [Status.ongoing.injEq] at hr
          exact lift (hn.eaa (.inl ⟨_, by rw [hr.1]⟩))
        · simp at hr
      ord := ord (by simp [hca])
      ord2 := ord2 (by
        rintro ⟨m, hm, hx⟩
        exact absurd hx (List.countP_eq_zero.mp hna m hm)) }
  | @acceptsAck rem e h h3 h4 =>
    obtain ⟨hcc, hca⟩ := acceptsAck_noCreate h
    have hna := countP_connect_zero h3
    have hc : e.delivers.countP isAck ≤ 1 := Nat.le_trans List.countP_le_length h4
    have hcon := hn.ecc (.inl ⟨_, _, rfl, by simp⟩)
    exact {
      cc0 := by
        intro rem hr
        split at hr <;> simp at hr
      cc1 := by simpa [hcc] using hn.cc1
      ca0 := by
        intro l rem' hr hne
        split at hr
        · simp at hr
        · simp only [Status.ongoing.injEq] at hr
          simp [hca, hn.ca0 _ _ rfl (hr.2 ▸ hne)]
      ca1 := by simpa [hca] using hn.ca1
      dc0 := by
        intro l hr
        split at hr
        · simp at hr
        · simp only [Status.ongoing.injEq] at hr
          rw [deliveries_snoc, List.countP_append, hna, hn.dc0 _ (by rw [hr.2])]
      dc1 := by rw [deliveries_snoc, List.countP_append, hna]; exact hn.dc1
      da0 := by
        intro l rem' hr hne
        split at hr
        · simp at hr
        · simp only [Status.ongoing.injEq] at hr
          exact absurd hr.1.symm hne
      da1 := by
        rw [deliveries_snoc, List.countP_append, hn.da0 _ _ rfl (by simp)]; omega
      ecc := fun _ => lift hcon
      eca := by
        intro hr
        apply lift
        apply hn.eca
        left
        by_cases hl : rem = .ackMsgSent
        · exact ⟨_, by rw [hl]⟩
        · simp [hl] at hr
      eac := by
        intro hr
        apply lift
        apply hn.eac
        left
        refine ⟨_, _, rfl, ?_⟩
        rintro rfl
        simp at hr
      eaa := fun _ => ⟨e, by simp, h⟩
      ord := ord (by simp [hca])
      ord2 := ord2 fun _ => hcon }

theorem clone_effect {cr : Crypto} {s c : Layer} (hc : s.tryClone.2 = .ok c) :
    Effect cr s.status (.clone (.ok ())) c.status := by
  obtain ⟨hs, rfl⟩ := tryClone_ok hc
  exact .quiet (.inl rfl) rfl rfl (by simp [Event.delivers])

theorem Nego.of_run {env : Env} {st : Start} {h : List Event} {s : Layer} (hr : Run env st h s) :
    Nego env.cr h s.status := by
  induction hr with
  | init h =>
    simp only [Layer.create, EphemeralKeyPair.generate, Res.bind_ok, Res.ok.injEq] at h
    subst h
    exact {
      cc0 := by simp
      cc1 := by simp
      ca0 := by simp
      ca1 := by simp
      dc0 := by simp [deliveries]
      dc1 := by simp [deliveries]
      da0 := by simp [deliveries]
      da1 := by simp [deliveries]
      ecc := by simp [Status.init]
      eca := by simp [Status.init]
      eac := by simp [Status.init]
      eaa := by simp [Status.init]
      ord := by simp
      ord2 := by simp }
  | call hr op ih => exact ih.step (step_effect (Wf.of_run hr) op)
  | cloned hr hc ih => exact ih.step (clone_effect hc)

/-- A layer that writes a user message or can be cloned has gone through the whole negotiation. -/
theorem C07_complete_before_use {env : Env} {st : Start} {h : List Event} {s : Layer}
    (hr : Run env st h s)
    (huse : (∃ d w, (s.writeMessage env d w).2.2 = .ok ()) ∨ (∃ c, s.tryClone.2 = .ok c)) :
    (∃ e ∈ h, e.createsConnect = true) ∧ (∃ e ∈ h, e.acceptsConnect env.cr) ∧
    (∃ e ∈ h, e.createsAck = true) ∧ (∃ e ∈ h, e.acceptsAck env.cr) := by
  have hs : s.status = .success := by
    rcases huse with ⟨d, w, hw⟩ | ⟨c, hc⟩
    · rcases writeMessage_cases env s d w with ⟨-, he⟩ | ⟨_, _, -, he⟩ | ⟨hs, -⟩ | ⟨hs, -⟩
      · rw [he] at hw; simp at hw
      · rw [he] at hw; simp at hw
      · exact hs
      · exact hs
    · exact (tryClone_ok hc).1
  have hn := Nego.of_run hr
  exact ⟨hn.ecc (.inr hs), hn.eac (.inr hs), hn.eca (.inr hs), hn.eaa (.inr hs)⟩

/-- In particular, when no call panicked and none reported a failed key agreement, the application has
received the CONNECT and the ACK. -/
theorem C07_delivered_before_use {env : Env} {st : Start} {h : List Event} {s : Layer}
    (hr : Run env st h s)
    (huse : (∃ d w, (s.writeMessage env d w).2.2 = .ok ()) ∨ (∃ c, s.tryClone.2 = .ok c))
    (hpan : ∀ e ∈ h, ¬ e.panicked) (hagr : ∀ e ∈ h, ¬ e.failedWith .failToComputeAgreement) :
    (∃ m ∈ deliveries h, isConnect m = true) ∧ (∃ m ∈ deliveries h, isAck m = true) := by
  obtain ⟨-, ⟨e, he, hc⟩, -, ⟨e', he', ha⟩⟩ := C07_complete_before_use hr huse
  constructor
  · rcases e with ⟨inc, r⟩ | _ | _ | _ | _ | _ | _ | _ <;> try exact False.elim hc
    rcases hc with ⟨-, ⟨a, k, d, rfl⟩ | rfl | rfl⟩
    · exact ⟨_, List.mem_flatMap.mpr ⟨_, he, by simp [Event.delivers]; rfl⟩, rfl⟩
    · exact absurd rfl (hagr _ he)
    · exact absurd trivial (hpan _ he)
  · rcases e' with ⟨inc, r⟩ | r | _ | _ | _ | _ | _ | _ <;> try exact False.elim ha
    · rcases ha with ⟨-, ⟨d, rfl⟩ | rfl⟩
      · exact ⟨_, List.mem_flatMap.mpr ⟨_, he', by simp [Event.delivers]; rfl⟩, rfl⟩
      · exact absurd trivial (hpan _ he')
    · rcases ha with ⟨d, rfl⟩ | rfl
      · exact ⟨_, List.mem_flatMap.mpr ⟨_, he', by simp [Event.delivers]; rfl⟩, rfl⟩
      · exact absurd trivial (hpan _ he')

/-- The toy party A can be cloned and can write. -/
example : ∃ h, Run (Toy.env true) Toy.stA h Toy.a4 ∧ (∃ c, Toy.a4.tryClone.2 = .ok c) ∧
    (∃ d w, (Toy.a4.writeMessage (Toy.env true) d w).2.2 = .ok ()) := by
  obtain ⟨h, hr⟩ := Toy.reach_a4 true
  obtain ⟨w', hw, -⟩ := writeMessage_good (env := Toy.env true) Toy.lawful (s := Toy.a4) (k := Toy.key) [1, 2, 3]
    (w := Toy.sink) rfl rfl rfl (by decide) (by decide)
  exact ⟨h, hr, ⟨_, rfl⟩, [1, 2, 3], Toy.sink, by rw [hw]⟩

/-- At most one CONNECT and one ACK in each direction; the ACK is made only after a correctly signed
CONNECT was accepted, and the peer's ACK is delivered only after our CONNECT was made. -/
theorem C08_once_each {env : Env} {st : Start} {h : List Event} {s : Layer} (hr : Run env st h s) :
    h.countP Event.createsConnect ≤ 1 ∧ h.countP Event.createsAck ≤ 1 ∧
    (deliveries h).countP isConnect ≤ 1 ∧ (deliveries h).countP isAck ≤ 1 ∧
    (∀ h1 e h2, h = h1 ++ e :: h2 → e.createsAck = true → ∃ e' ∈ h1, e'.acceptsConnect env.cr) ∧
    (∀ h1 e h2, h = h1 ++ e :: h2 → (∃ m ∈ e.delivers, isAck m = true) →
      ∃ e' ∈ h1, e'.createsConnect = true) := by
  have hn := Nego.of_run hr
  exact ⟨hn.cc1, hn.ca1, hn.dc1, hn.da1, hn.ord, hn.ord2⟩

/-- The bounds are met by the toy session. -/
example : ∃ h, Run (Toy.env true) Toy.stA h Toy.a4 ∧ h.countP Event.createsConnect = 1 ∧
    h.countP Event.createsAck = 1 := by
  obtain ⟨h, hr⟩ := Toy.reach_a4 true
  have hn := Nego.of_run hr
  refine ⟨h, hr, ?_, ?_⟩
  · obtain ⟨e, he, hc⟩ := hn.ecc (.inr rfl)
    have := List.countP_pos_iff.mpr ⟨e, he, hc⟩
    have := hn.cc1
    omega
  · obtain ⟨e, he, hc⟩ := hn.eca (.inr rfl)
    have := List.countP_pos_iff.mpr ⟨e, he, hc⟩
    have := hn.ca1
    omega

/-- A call that has no visible effect: it delivers nothing, returns no message bytes, hands nothing to a
writer and does not clone. -/
def Inert : Event → Prop
  | .read _ r => ∀ m, r ≠ .ok (some m)
  | .takeAck r => ∀ m, r ≠ .ok (some m)
  | .drain r => ∀ m ms, r ≠ .ok (m :: ms)
  | .connect _ _ r => ∀ b, r ≠ .ok b
  | .ack _ r => ∀ b, r ≠ .ok b
  | .write _ before after r => after = before ∧ r ≠ .ok ()
  | .clone r => r ≠ .ok ()
  | .config _ _ => True

/-- Once the layer has failed it stays failed and every later call is inert, whatever happens. -/
theorem C09_fail_forever {env : Env} {st : Start} {h h' : List Event} {s s' : Layer}
    (hr : Run env st h s) (hf : s.status = .fail) (hs : Steps env s h' s') :
    s'.status = .fail ∧ ∀ e ∈ h', Inert e := by
  induction hs with
  | refl => exact ⟨hf, by simp⟩
  | @call s' h' hs op ih =>
    obtain ⟨ih1, ih2⟩ := ih
    have hw := Wf.of_run (hr.steps hs)
    have heff := step_effect hw op
    rw [ih1] at heff
    have hst : (step env s' op).1.status = .fail ∧ (step env s' op).2.createsConnect = false ∧
        (step env s' op).2.createsAck = false ∧ (step env s' op).2.delivers = [] := by
      generalize (step env s' op).2 = e at heff ⊢
      generalize (step env s' op).1.status = b at heff ⊢
      generalize ha : Status.fail = a at heff
      cases heff with
      | quiet hb h1 h2 h3 =>
        refine ⟨by rcases hb with rfl | rfl <;> simp [ha], h1, h2, ?_⟩
        rw [List.eq_nil_iff_forall_not_mem]
        intro m hm
        obtain ⟨d, -, h4⟩ := h3 m hm
        rw [h4] at ha; simp at ha
      | createsConnect => simp at ha
      | createsAck => simp at ha
      | acceptsConnect => simp at ha
      | acceptsAck => simp at ha
    obtain ⟨k1, k2, k3, k4⟩ := hst
    refine ⟨k1, ?_⟩
    intro e he
    rcases List.mem_append.mp he with he | he
    · exact ih2 e he
    simp only [List.mem_singleton] at he
    subst he
    cases op with
    | read b =>
      intro m hm
      simp only [step] at k4 hm
      rw [hm] at k4; simp [Event.delivers] at k4
    | takeAck =>
      intro m hm
      simp only [step] at k4 hm
      rw [hm] at k4; simp [Event.delivers] at k4
    | drain =>
      intro m ms hm
      simp only [step] at k4 hm
      rw [hm] at k4; simp [Event.delivers] at k4
    | connect pk d =>
      intro b hb
      simp only [step] at k2 hb
      rw [hb] at k2; simp [Event.createsConnect] at k2
    | ack d =>
      intro b hb
      simp only [step] at k3 hb
      rw [hb] at k3; simp [Event.createsAck] at k3
    | write d w =>
      simp only [step, Inert]
      rcases writeMessage_cases env s' d w with ⟨-, he⟩ | ⟨_, _, hx, -⟩ | ⟨hx, -⟩ | ⟨hx, -⟩
      · rw [he]; simp
      · rw [ih1] at hx; simp at hx
      · rw [ih1] at hx; simp at hx
      · rw [ih1] at hx; simp at hx
    | clone =>
      simp only [step, Inert, Layer.tryClone, ih1]
      simp [unitRes]
    | config c => trivial
  | @cloned s' c h' hs hc ih =>
    have := (tryClone_ok hc).1
    rw [ih.1] at this
    simp at this

/-- A toy layer fails by writing too early. -/
example : ∃ h s, Run (Toy.env true) Toy.stA h s ∧ s.status = .fail := by
  obtain ⟨h, hr⟩ := Toy.reach_a3 true
  exact ⟨_, _, .call hr (.write [1] Toy.sink), rfl⟩

/-- A user message is delivered only after the negotiation is complete; before that `write_message`
writes nothing and fails the layer for good. -/
theorem C10_no_user_data_before_negotiation {env : Env} {st : Start} {h : List Event} {s : Layer}
    (hr : Run env st h s) (hneg : s.tryClone.2 = .err .negoMustHaveBeenSuccessful) :
    (∀ op, ∀ m ∈ (step env s op).2.delivers, isUser m = false) ∧
    (∀ d w, (s.writeMessage env d w).2.1 = w ∧ (s.writeMessage env d w).2.2 ≠ .ok () ∧
      (s.writeMessage env d w).1.status = .fail) := by
  have hns : s.status ≠ .success := by
    intro hs
    simp [Layer.tryClone, hs] at hneg
  constructor
  · intro op m hm
    have heff := step_effect (Wf.of_run hr) op
    generalize (step env s op).2 = e at heff hm
    generalize (step env s op).1.status = b at heff
    generalize ha : s.status = a at heff
    cases heff with
    | quiet hb h1 h2 h3 =>
      obtain ⟨d, -, h4⟩ := h3 m hm
      rw [h4] at ha; exact absurd ha hns
    | createsConnect => simp [Event.delivers] at hm
    | createsAck => simp [Event.delivers] at hm
    | acceptsConnect h h3 =>
      have := h3 m hm
      cases m <;> simp_all [isConnect, isUser]
    | acceptsAck h h3 =>
      have := h3 m hm
      cases m <;> simp_all [isAck, isUser]
  · intro d w
    rcases writeMessage_cases env s d w with ⟨hs, he⟩ | ⟨_, _, -, he⟩ | ⟨hs, -⟩ | ⟨hs, -⟩
    · rw [he]; simp [hs]
    · rw [he]; simp
    · exact absurd hs hns
    · exact absurd hs hns

/-- A delivered user message has the whole negotiation behind it. -/
theorem C10_user_data_after_negotiation {env : Env} {st : Start} {h h1 h2 : List Event} {s : Layer} {e : Event}
    {m : Message} (hr : Run env st h s) (hh : h = h1 ++ e :: h2) (hm : m ∈ e.delivers)
    (hu : isUser m = true) :
    (∃ e ∈ h1, e.createsConnect = true) ∧ (∃ e ∈ h1, e.acceptsConnect env.cr) ∧
    (∃ e ∈ h1, e.createsAck = true) ∧ (∃ e ∈ h1, e.acceptsAck env.cr) := by
  obtain ⟨s2, hr2, -⟩ := hr.prefix (h1 ++ [e]) h2 (by simp [hh])
  obtain ⟨s1, hr1, hs1⟩ := hr2.prefix h1 [e] rfl
  have hn := Nego.of_run hr1
  suffices hs : s1.status = .success from
    ⟨hn.ecc (.inr hs), hn.eac (.inr hs), hn.eca (.inr hs), hn.eaa (.inr hs)⟩
  by_contra hns
  generalize hl : [e] = l at hs1
  cases hs1 with
  | refl => simp at hl
  | @call s' h' hs op =>
    obtain ⟨hl1, hl2⟩ := List.append_inj' (s₁ := []) hl rfl
    subst hl1
    simp only [List.cons.injEq, and_true] at hl2
    have : s1 = s' := by
      generalize hh' : ([] : List Event) = hh at hs
      cases hs with
      | refl => rfl
      | call => simp at hh'
      | cloned => simp at hh'
    subst this
    have := (C10_no_user_data_before_negotiation hr1 (by simp [Layer.tryClone, hns])).1 op m (hl2 ▸ hm)
    rw [hu] at this
    simp at this
  | @cloned s' c h' hs hc =>
    obtain ⟨hl1, hl2⟩ := List.append_inj' (s₁ := []) hl rfl
    simp only [List.cons.injEq, and_true] at hl2
    rw [hl2] at hm
    simp [Event.delivers] at hm

/-- Before the negotiation is complete cloning is refused, in every toy stage. -/
example : Toy.Reach (Toy.env true) Toy.stB Toy.b3 ∧ Toy.b3.tryClone.2 = .err .negoMustHaveBeenSuccessful :=
  ⟨Toy.reach_b3 _, rfl⟩

end Pkstl
