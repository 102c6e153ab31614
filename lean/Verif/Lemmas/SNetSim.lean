import Verif.Lemmas.NetLive
import Verif.Props.CompleteHistory
import Verif.Props.Serde
import Verif.Spec.SNet
/- The system with the serde API is a system with the binary API in which the data are encoded values. -/
namespace Pkstl
open Spec

section
variable {M : Type} {env : Env} {st : Bool → CStart} {f : Bool → Features} {c : Codec M} {n : SNet M} {N : Net}

/-- Bytes that are the encoding of a value in a format that a build with the features `f` knows. -/
def Wraps (f : Features) (c : Codec M) (b : Bytes) (m : M) : Prop :=
  ∃ fmt body, Knows? f fmt ∧ Encodes c fmt m body ∧ b = formatTag fmt ++ body

theorem Wraps.reads {f : Features} (hc : c.Lawful) {b : Bytes} {m : M} (h : Wraps f c b m) : Reads f c b m := by
  obtain ⟨fmt, body, h1, h2, h3⟩ := h
  exact ⟨fmt, body, h1, h3, decodes_of_encodes hc h2⟩

inductive WrapsOpt (f : Features) (c : Codec M) : Option Bytes → Option M → Prop where
  | none : WrapsOpt f c none none
  | some {b : Bytes} {m : M} (h : Wraps f c b m) : WrapsOpt f c (some b) (some m)

inductive WrapsSent (f : Features) (c : Codec M) : Sent → SSent M → Prop where
  | connect {d : Option Bytes} {e : Option M} (h : WrapsOpt f c d e) : WrapsSent f c (.connect d) (.connect e)
  | ack {d : Option Bytes} {e : Option M} (h : WrapsOpt f c d e) : WrapsSent f c (.ack d) (.ack e)
  | user {i : Nat} {b : Bytes} {m : M} (h : Wraps f c b m) : WrapsSent f c (.user i b) (.user i m)

def WrapsFlight (f : Features) (c : Codec M) (x : Flight) (y : SFlight M) : Prop :=
  WrapsSent f c x.what y.what ∧ y.bytes = x.bytes

/-- What `read` makes of the result of `read_bin`. -/
def asRead (f : Features) (c : Codec M) : Res (List BinMessage) → Res (List (SerMessage M))
  | .ok ms => deserializeMsgs f c ms
  | .err e => .err e
  | .panic p => .panic p

/-- The two systems in corresponding states. -/
structure SimS (f : Bool → Features) (c : Codec M) (N : Net) (n : SNet M) : Prop where
  layer : n.layer = N.layer
  wire : ∀ p, List.Forall₂ (WrapsFlight (f p) c) (N.wire p) (n.wire p)
  wrote : ∀ p, List.Forall₂ (WrapsSent (f (!p)) c) (N.wrote p) (n.wrote p)
  log : ∀ p, List.Forall₂ (fun E e => WrapsFlight (f p) c E.1 e.1 ∧ e.2 = asRead (f p) c E.2) (N.log p) (n.log p)

theorem wraps_of_packs {f : Features} {fmt : MessageFormat} {d : Option M} {e : Option Bytes} (h : Packs c fmt d e)
    (hk : d = none ∨ Knows? f fmt) : WrapsOpt f c e d := by
  cases h with
  | none => exact .none
  | some h =>
    rcases hk with hk | hk
    · cases hk
    · exact .some ⟨fmt, _, hk, h, rfl⟩

theorem readSer_eq (s : SecureLayer) (f : Features) (b : Bytes) :
    s.readSer env f c b = ((s.readBin env b).1, asRead f c (s.readBin env b).2) := by
  unfold SecureLayer.readSer
  rcases s.readBin env b with ⟨s', _ | _ | _⟩ <;> rfl

/-- A serde writer that fails to encode the value does nothing. -/
theorem writeConnectSer_cases (s : SecureLayer) (d : Option M) (w : BufW) :
    (∃ e, Packs c s.minimal.config.messageFormat d e ∧ s.writeConnectSer env c d w = s.writeConnectBin env e w) ∨
    ∃ r, r ≠ .ok () ∧ s.writeConnectSer env c d w = (s, w, r) ∧ ¬ ∃ e, Packs c s.minimal.config.messageFormat d e := by
  unfold SecureLayer.writeConnectSer
  cases h : s.serializeOpt env.cr c d with
  | ok x =>
    obtain ⟨e, h1, rfl⟩ := serializeOpt_ok h
    exact .inl ⟨e, h1, rfl⟩
  | err x =>
    refine .inr ⟨_, by simp, rfl, ?_⟩
    rintro ⟨e, hp⟩
    cases hp with
    | none => simp [SecureLayer.serializeOpt] at h
    | some hp => simp [SecureLayer.serializeOpt, C44_serialize.mpr ⟨_, hp, rfl⟩] at h
  | panic x =>
    refine .inr ⟨_, by simp, rfl, ?_⟩
    rintro ⟨e, hp⟩
    cases hp with
    | none => simp [SecureLayer.serializeOpt] at h
    | some hp => simp [SecureLayer.serializeOpt, C44_serialize.mpr ⟨_, hp, rfl⟩] at h

theorem writeAckSer_cases (s : SecureLayer) (d : Option M) (w : BufW) :
    (∃ e, Packs c s.minimal.config.messageFormat d e ∧ s.writeAckSer env c d w = s.writeAckBin env e w) ∨
    ∃ r, r ≠ .ok () ∧ s.writeAckSer env c d w = (s, w, r) ∧ ¬ ∃ e, Packs c s.minimal.config.messageFormat d e := by
  unfold SecureLayer.writeAckSer
  cases h : s.serializeOpt env.cr c d with
  | ok x =>
    obtain ⟨e, h1, rfl⟩ := serializeOpt_ok h
    exact .inl ⟨e, h1, rfl⟩
  | err x =>
    refine .inr ⟨_, by simp, rfl, ?_⟩
    rintro ⟨e, hp⟩
    cases hp with
    | none => simp [SecureLayer.serializeOpt] at h
    | some hp => simp [SecureLayer.serializeOpt, C44_serialize.mpr ⟨_, hp, rfl⟩] at h
  | panic x =>
    refine .inr ⟨_, by simp, rfl, ?_⟩
    rintro ⟨e, hp⟩
    cases hp with
    | none => simp [SecureLayer.serializeOpt] at h
    | some hp => simp [SecureLayer.serializeOpt, C44_serialize.mpr ⟨_, hp, rfl⟩] at h

theorem writeSer_cases (s : SecureLayer) (m : M) (w : BufW) :
    (∃ body, Encodes c s.minimal.config.messageFormat m body ∧
      s.writeSer env c m w = s.writeBin env (formatTag s.minimal.config.messageFormat ++ body) w) ∨
    ∃ r, r ≠ .ok () ∧ s.writeSer env c m w = (s, w, r) ∧ ¬ ∃ body, Encodes c s.minimal.config.messageFormat m body := by
  unfold SecureLayer.writeSer
  cases h : serialize c m s.minimal.config.messageFormat with
  | ok x =>
    obtain ⟨body, h1, rfl⟩ := C44_serialize.mp h
    exact .inl ⟨body, h1, rfl⟩
  | err x =>
    refine .inr ⟨_, by simp, rfl, ?_⟩
    rintro ⟨e, hp⟩
    simp [C44_serialize.mpr ⟨_, hp, rfl⟩] at h
  | panic x =>
    refine .inr ⟨_, by simp, rfl, ?_⟩
    rintro ⟨e, hp⟩
    simp [C44_serialize.mpr ⟨_, hp, rfl⟩] at h

/-- A failed call changes nothing. -/
theorem SNet.sent_failed (n : SNet M) (p : Bool) (x : SSent M) (w : BufW) {r : Res Unit} (hr : r ≠ .ok ()) :
    n.sent p x w (n.layer p, w, r) = n := by
  obtain ⟨l, wi, wr, lg⟩ := n
  simp [SNet.sent, hr]

theorem update_forall₂ {α β : Type} {R : Bool → α → β → Prop} {l : Bool → List α} {l' : Bool → List β}
    (h : ∀ p, List.Forall₂ (R p) (l p) (l' p)) (q : Bool) {x : List α} {y : List β} (hxy : List.Forall₂ (R q) x y) :
    ∀ p, List.Forall₂ (R p) (Function.update l q x p) (Function.update l' q y p) := by
  intro p
  by_cases hp : p = q
  · subst hp; simpa using hxy
  · simpa [hp] using h p

/-- The same written call in both systems. -/
theorem SimS.sent (h : SimS f c N n) (p : Bool) {X : Sent} {x : SSent M} (hx : WrapsSent (f (!p)) c X x) (w : BufW)
    (o : SecureLayer × BufW × Res Unit) : SimS f c (N.sent p X w o) (n.sent p x w o) where
  layer := by simp [Net.sent, SNet.sent, h.layer]
  wire := by
    refine update_forall₂ h.wire (!p) (List.rel_append (h.wire _) ?_)
    split
    · exact .nil
    · exact .cons ⟨hx, rfl⟩ .nil
  wrote := by
    refine update_forall₂ (R := fun p => WrapsSent (f (!p)) c) h.wrote p (List.rel_append (h.wrote _) ?_)
    split
    · exact .cons hx .nil
    · exact .nil
  log := h.log

theorem SimS.received (h : SimS f c N n) (p : Bool) {X : Flight} {x : SFlight M} (hx : WrapsFlight (f p) c X x)
    {L : List Flight} {l : List (SFlight M)} (hl : List.Forall₂ (WrapsFlight (f p) c) L l) :
    SimS f c (N.received env p X L) (n.received env f c p x l) where
  layer := by simp only [Net.received, SNet.received, h.layer, readSer_eq, hx.2]
  wire := update_forall₂ h.wire p hl
  wrote := h.wrote
  log := by
    refine update_forall₂ (R := fun p (E : Flight × Res (List BinMessage)) (e : SFlight M × Res (List (SerMessage M))) =>
      WrapsFlight (f p) c E.1 e.1 ∧ e.2 = asRead (f p) c E.2) h.log p
      (List.rel_append (h.log _) (.cons ⟨hx, ?_⟩ .nil))
    rw [readSer_eq, hx.2, h.layer]

theorem forall₂_filterMap {α β γ δ : Type} {R : α → β → Prop} {S : γ → δ → Prop} {g : α → Option γ} {g' : β → Option δ}
    (hg : ∀ a b, R a b → Option.Rel S (g a) (g' b)) {l : List α} {l' : List β} (h : List.Forall₂ R l l') :
    List.Forall₂ S (l.filterMap g) (l'.filterMap g') := by
  induction h with
  | nil => exact .nil
  | @cons a b l l' hab _ ih =>
    have := hg a b hab
    cases h1 : g a with
    | none =>
      rw [h1] at this
      cases h2 : g' b with
      | none => rw [List.filterMap_cons_none h1, List.filterMap_cons_none h2]; exact ih
      | some y => rw [h2] at this; cases this
    | some x =>
      rw [h1] at this
      cases h2 : g' b with
      | none => rw [h2] at this; cases this
      | some y =>
        rw [h2] at this
        cases this with
        | some hs => rw [List.filterMap_cons_some h1, List.filterMap_cons_some h2]; exact .cons hs ih

/-- Corresponding user messages. -/
def WrapsUser (f : Features) (c : Codec M) (x : Nat × Bytes) (y : Nat × M) : Prop := x.1 = y.1 ∧ Wraps f c x.2 y.2

theorem wraps_connects {f : Features} {L : List Sent} {l : List (SSent M)} (h : List.Forall₂ (WrapsSent f c) L l) :
    List.Forall₂ (WrapsOpt f c) (connectsOf L) (l.filterMap SSent.connect?) :=
  forall₂_filterMap (by
    intro a b hab
    cases hab with
    | connect h => exact .some h
    | ack h => exact .none
    | user h => exact .none) h

theorem wraps_acks {f : Features} {L : List Sent} {l : List (SSent M)} (h : List.Forall₂ (WrapsSent f c) L l) :
    List.Forall₂ (WrapsOpt f c) (acksOf L) (l.filterMap SSent.ack?) :=
  forall₂_filterMap (by
    intro a b hab
    cases hab with
    | ack h => exact .some h
    | connect h => exact .none
    | user h => exact .none) h

theorem wraps_users {f : Features} {L : List Sent} {l : List (SSent M)} (h : List.Forall₂ (WrapsSent f c) L l) :
    List.Forall₂ (WrapsUser f c) (usersOf L) (l.filterMap SSent.user?) :=
  forall₂_filterMap (by
    intro a b hab
    cases hab with
    | user h => exact .some ⟨rfl, h⟩
    | ack h => exact .none
    | connect h => exact .none) h

theorem SimS.arrived (h : SimS f c N n) (p : Bool) :
    List.Forall₂ (WrapsSent (f p) c) (N.arrived p) ((n.log p).map fun e => e.1.what) := by
  unfold Net.arrived
  rw [List.forall₂_map_left_iff, List.forall₂_map_right_iff]
  exact (h.log p).imp fun a b hab => hab.1.1

theorem SimS.numbers (h : SimS f c N n) (p : Bool) :
    (usersOf (N.arrived p)).map Prod.fst = (n.usersArrived p).map Prod.fst := by
  have := wraps_users (h.arrived p)
  unfold SNet.usersArrived
  generalize usersOf (N.arrived p) = L at this ⊢
  generalize List.filterMap SSent.user? _ = l at this ⊢
  induction this with
  | nil => rfl
  | cons h1 _ ih => rw [List.map_cons, List.map_cons, ih, h1.1]

theorem SimS.fair (h : SimS f c N n) : N.Fair ↔ n.Fair := by
  unfold Net.Fair SNet.Fair
  simp only [h.numbers]

theorem SimS.count (h : SimS f c N n) (p : Bool) : (usersOf (N.wrote p)).length = (n.users p).length :=
  (wraps_users (h.wrote p)).length_eq

theorem forall₂_nil_iff {α β : Type} {R : α → β → Prop} {l : List α} {l' : List β} (h : List.Forall₂ R l l') :
    l = [] ↔ l' = [] := by
  cases h <;> simp

theorem deserializeMsgs_ack {f : Features} {ms : List BinMessage} {ys : List (SerMessage M)} {d : Option M}
    (h : deserializeMsgs f c ms = .ok ys) (hd : .ack d ∈ ys) : ∃ e, .ack e ∈ ms := by
  obtain ⟨x, hx, hr⟩ := forall₂_mem_right (deserializeMsgs_iff.mp h) hd
  cases hr with
  | ack h => exact ⟨_, hx⟩

theorem SimS.ready (h : SimS f c N n) {p : Bool} (hr : n.ready p) : N.ready p := by
  refine ⟨fun hc => hr.1 ((forall₂_nil_iff (wraps_acks (h.wrote p))).mp hc), ?_⟩
  obtain ⟨d, hd⟩ := List.exists_mem_of_ne_nil _ hr.2
  unfold SNet.gotAcks at hd
  obtain ⟨y, hy, hyd⟩ := List.mem_filterMap.mp hd
  have hyd : y = .ack d := by cases y <;> simp_all
  subst hyd
  unfold SNet.delivered at hy
  obtain ⟨e, he, hey⟩ := List.mem_flatMap.mp hy
  obtain ⟨E, hE, -, h2⟩ := forall₂_mem_right (h.log p) he
  rw [h2] at hey
  cases hE2 : E.2 with
  | err x => simp [hE2, asRead] at hey
  | panic x => simp [hE2, asRead] at hey
  | ok ms =>
    rw [hE2] at hey
    simp only [asRead] at hey
    cases hds : deserializeMsgs (f p) c ms with
    | err x => simp [hds] at hey
    | panic x => simp [hds] at hey
    | ok ys =>
      rw [hds] at hey
      obtain ⟨e', he'⟩ := deserializeMsgs_ack hds hey
      have : e' ∈ acksIn (N.delivered p) :=
        List.mem_filterMap.mpr ⟨_, List.mem_flatMap.mpr ⟨E, hE, by rw [hE2]; exact he'⟩, rfl⟩
      intro hc
      rw [hc] at this
      simp at this

theorem SimS.step (h : SimS f c N n) {n' : SNet M} (hs : n.Step env f c n') :
    ∃ N', (N' = N ∨ N.Step env N') ∧ SimS f c N' n' := by
  cases hs with
  | connect p d w hf hk =>
    rcases writeConnectSer_cases (env := env) (c := c) (n.layer p) d w with ⟨e, h1, h2⟩ | ⟨r, h1, h2, -⟩
    · rw [h2] at hf ⊢
      rw [h.layer] at hf ⊢
      exact ⟨_, .inr (.connect p e w hf), h.sent p (.connect (wraps_of_packs h1 hk)) w _⟩
    · rw [h2, SNet.sent_failed n p _ w h1]
      exact ⟨N, .inl rfl, h⟩
  | ack p d w hf hk =>
    rcases writeAckSer_cases (env := env) (c := c) (n.layer p) d w with ⟨e, h1, h2⟩ | ⟨r, h1, h2, -⟩
    · rw [h2] at hf ⊢
      rw [h.layer] at hf ⊢
      exact ⟨_, .inr (.ack p e w hf), h.sent p (.ack (wraps_of_packs h1 hk)) w _⟩
    · rw [h2, SNet.sent_failed n p _ w h1]
      exact ⟨N, .inl rfl, h⟩
  | user p m w hf hcap hn hr hk =>
    rcases writeSer_cases (env := env) (c := c) (n.layer p) m w with ⟨body, h1, h2⟩ | ⟨r, h1, h2, -⟩
    · rw [h2] at hf ⊢
      have hcnt := h.count p
      have hs := Net.Step.user (env := env) (n := N) p (formatTag (n.layer p).minimal.config.messageFormat ++ body) w
        (by rw [← h.layer]; exact hf) hcap (by rw [hcnt]; exact hn) (h.ready hr)
      refine ⟨_, .inr hs, ?_⟩
      rw [← h.layer, hcnt]
      exact h.sent p (.user ⟨_, body, hk, h1, rfl⟩) w _
    · rw [h2, SNet.sent_failed n p _ w h1]
      exact ⟨N, .inl rfl, h⟩
  | config p x =>
    refine ⟨_, .inr (.config p x), ?_, h.wire, h.wrote, h.log⟩
    simp only [h.layer]
  | deliver p x l1 l2 hx =>
    have hw := h.wire p
    rw [hx] at hw
    obtain ⟨L1, L2', h3, h1, h2⟩ := forall₂_append_left hw.flip
    cases h2 with
    | cons hxx h2 =>
      exact ⟨_, .inr (.deliver p _ L1 _ h3), h.received p hxx (List.rel_append h1.flip h2.flip)⟩

theorem SimS.of_run {n : SNet M} (hr : n.Run env f c st) : ∃ N, N.Run env st ∧ SimS f c N n := by
  induction hr with
  | @init n h =>
    refine ⟨⟨n.layer, fun _ => [], fun _ => [], fun _ => []⟩, .init ⟨h.layer, fun _ => rfl, fun _ => rfl, fun _ => rfl⟩,
      rfl, ?_, ?_, ?_⟩
    · intro p; rw [h.wire]; exact .nil
    · intro p; rw [h.wrote]; exact .nil
    · intro p; rw [h.log]; exact .nil
  | step _ hs ih =>
    obtain ⟨N, h1, h2⟩ := ih
    obtain ⟨N', h3, h4⟩ := h2.step hs
    rcases h3 with rfl | h3
    · exact ⟨_, h1, h4⟩
    · exact ⟨_, .step h1 h3, h4⟩

/-- Calls without data are the same in both systems. -/
theorem SimS.bare (h : SimS f c N n) {N' : Net} (hs : N.Bare env N') : ∃ n', n.Steps env f c n' ∧ SimS f c N' n' := by
  induction hs with
  | refl => exact ⟨n, .refl, h⟩
  | step _ hb ih =>
    obtain ⟨m, h1, h2⟩ := ih
    cases hb with
    | connect p w hf =>
      have e : (m.layer p).writeConnectSer env c none w = (m.layer p).writeConnectBin env none w := rfl
      rw [← h2.layer] at hf ⊢
      exact ⟨_, .step h1 (.connect p none w (by rw [e]; exact hf) (.inl rfl)), by rw [e]; exact h2.sent p (.connect .none) w _⟩
    | ack p w hf =>
      have e : (m.layer p).writeAckSer env c none w = (m.layer p).writeAckBin env none w := rfl
      rw [← h2.layer] at hf ⊢
      exact ⟨_, .step h1 (.ack p none w (by rw [e]; exact hf) (.inl rfl)), by rw [e]; exact h2.sent p (.ack .none) w _⟩
    | deliver p X L1 L2 hx =>
      have hw := h2.wire p
      rw [hx] at hw
      obtain ⟨l1, l2', h5, h3, h4⟩ := forall₂_append_left hw
      cases h4 with
      | cons hxx h4 =>
        exact ⟨_, .step h1 (.deliver p _ l1 _ h5), h2.received p hxx (List.rel_append h3 h4)⟩

end
end Pkstl
