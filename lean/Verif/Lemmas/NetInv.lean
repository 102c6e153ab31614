import Verif.Lemmas.NetRead
/- The invariant of the two-party system. -/
namespace Pkstl
open Spec

/-- The whole system. -/
structure NetInv (env : Env) (st : Bool → CStart) (K : SecretKey) (n : Net) : Prop where
  party : ∀ p, Party env st K p (n.layer p) (connectsOf (n.wrote p)) (acksOf (n.wrote p)) (usersOf (n.wrote p))
    (connectsOf (n.arrived p)) (acksOf (n.arrived p)) (usersOf (n.arrived p)) (n.delivered p)
  link : ∀ p, ((n.wire p).map Flight.what ++ n.arrived p).Perm (n.wrote (!p))
  good : ∀ p, ∀ x ∈ n.wire p, Good env st K (!p) x.what x.bytes
  ok : ∀ p, ∀ e ∈ n.log p, ∃ l, e.2 = .ok l

theorem connectsOf_append (l l' : List Sent) : connectsOf (l ++ l') = connectsOf l ++ connectsOf l' :=
  List.filterMap_append
theorem acksOf_append (l l' : List Sent) : acksOf (l ++ l') = acksOf l ++ acksOf l' := List.filterMap_append
theorem usersOf_append (l l' : List Sent) : usersOf (l ++ l') = usersOf l ++ usersOf l' := List.filterMap_append

@[simp] theorem connectsOf_nil : connectsOf [] = [] := rfl
@[simp] theorem connectsOf_connect (d : Option Bytes) (l : List Sent) : connectsOf (.connect d :: l) = d :: connectsOf l := rfl
@[simp] theorem connectsOf_ack (d : Option Bytes) (l : List Sent) : connectsOf (.ack d :: l) = connectsOf l := rfl
@[simp] theorem connectsOf_user (m : Nat) (d : Bytes) (l : List Sent) : connectsOf (.user m d :: l) = connectsOf l := rfl
@[simp] theorem acksOf_nil : acksOf [] = [] := rfl
@[simp] theorem acksOf_connect (d : Option Bytes) (l : List Sent) : acksOf (.connect d :: l) = acksOf l := rfl
@[simp] theorem acksOf_ack (d : Option Bytes) (l : List Sent) : acksOf (.ack d :: l) = d :: acksOf l := rfl
@[simp] theorem acksOf_user (m : Nat) (d : Bytes) (l : List Sent) : acksOf (.user m d :: l) = acksOf l := rfl
@[simp] theorem usersOf_nil : usersOf [] = [] := rfl
@[simp] theorem usersOf_connect (d : Option Bytes) (l : List Sent) : usersOf (.connect d :: l) = usersOf l := rfl
@[simp] theorem usersOf_ack (d : Option Bytes) (l : List Sent) : usersOf (.ack d :: l) = usersOf l := rfl
@[simp] theorem usersOf_user (m : Nat) (d : Bytes) (l : List Sent) : usersOf (.user m d :: l) = (m, d) :: usersOf l := rfl

theorem eq_not_of_ne {p q : Bool} (h : q ≠ p) : q = !p := by
  cases p <;> cases q <;> simp_all

section
variable {env : Env} {st : Bool → CStart} {K : SecretKey} {n : Net}

/-- A writing call. -/
theorem NetInv.sent (hi : NetInv env st K n) {p : Bool} {x : Sent} {w : BufW} {o : SecureLayer × BufW × Res Unit}
    (h : (∃ e, o = (n.layer p, w, .err e)) ∨
      ∃ s' w' b, o = (s', w', .ok ()) ∧ w'.stream = w.stream ++ b ∧ b ≠ [] ∧ Good env st K p x b ∧
        Party env st K p s' (connectsOf (n.wrote p ++ [x])) (acksOf (n.wrote p ++ [x])) (usersOf (n.wrote p ++ [x]))
          (connectsOf (n.arrived p)) (acksOf (n.arrived p)) (usersOf (n.arrived p)) (n.delivered p)) :
    NetInv env st K (n.sent p x w o) := by
  rcases h with ⟨e, rfl⟩ | ⟨s', w', b, rfl, hb, hne, hg, hp⟩
  · have : n.sent p x w (n.layer p, w, .err e) = n := by
      unfold Net.sent
      simp
    rw [this]; exact hi
  · have hs : n.sent p x w (s', w', .ok ()) =
        { n with
          layer := Function.update n.layer p s'
          wire := Function.update n.wire (!p) (n.wire (!p) ++ [⟨x, b⟩])
          wrote := Function.update n.wrote p (n.wrote p ++ [x]) } := by
      unfold Net.sent
      simp [hb, hne]
    rw [hs]
    constructor
    · intro q
      by_cases hq : q = p
      · subst hq
        simpa [Net.arrived, Net.delivered] using hp
      · simpa [hq, Net.arrived, Net.delivered] using hi.party q
    · intro q
      by_cases hq : q = p
      · subst hq
        simpa [Net.arrived] using hi.link q
      · obtain rfl := eq_not_of_ne hq
        have := hi.link (!p)
        simp only [Net.arrived, Function.update_self, Bool.not_not, List.map_append, List.map_cons, List.map_nil] at this ⊢
        refine List.Perm.trans ?_ (this.append_right [x])
        rw [List.append_assoc, List.append_assoc]
        exact List.Perm.append_left _ List.perm_append_comm
    · intro q y hy
      by_cases hq : q = p
      · subst hq
        simp only [ne_eq, Bool.eq_not_self, not_false_eq_true, Function.update_of_ne] at hy
        exact hi.good q y hy
      · obtain rfl := eq_not_of_ne hq
        simp only [Function.update_self] at hy
        rcases List.mem_append.mp hy with hy | hy
        · exact hi.good _ y hy
        · rw [List.mem_singleton.mp hy, Bool.not_not]
          exact hg
    · exact hi.ok

/-- A call of `read_bin`. -/
theorem NetInv.received (hi : NetInv env st K n) {p : Bool} {x : Flight} {l1 l2 : List Flight}
    (hx : n.wire p = l1 ++ x :: l2)
    (h : ∃ s' l, (n.layer p).readBin env x.bytes = (s', .ok l) ∧
        Party env st K p s' (connectsOf (n.wrote p)) (acksOf (n.wrote p)) (usersOf (n.wrote p))
          (connectsOf (n.arrived p ++ [x.what])) (acksOf (n.arrived p ++ [x.what])) (usersOf (n.arrived p ++ [x.what]))
          (n.delivered p ++ l)) :
    NetInv env st K (n.received env p x (l1 ++ l2)) := by
  obtain ⟨s', l, he, hp⟩ := h
  have hs : n.received env p x (l1 ++ l2) =
      { n with
        layer := Function.update n.layer p s'
        wire := Function.update n.wire p (l1 ++ l2)
        log := Function.update n.log p (n.log p ++ [(x, .ok l)]) } := by
    unfold Net.received
    rw [he]
  rw [hs]
  constructor
  · intro q
    by_cases hq : q = p
    · subst hq
      simpa [Net.arrived, Net.delivered, handed] using hp
    · simpa [hq, Net.arrived, Net.delivered] using hi.party q
  · intro q
    by_cases hq : q = p
    · subst hq
      have := hi.link q
      rw [hx] at this
      simp only [Net.arrived, Function.update_self, List.map_append, List.map_cons, List.map_nil] at this ⊢
      refine List.Perm.trans ?_ this
      rw [List.append_assoc, List.append_assoc]
      refine List.Perm.append_left _ ?_
      rw [← List.append_assoc]
      exact List.perm_append_comm
    · simpa [hq, Net.arrived] using hi.link q
  · intro q y hy
    by_cases hq : q = p
    · subst hq
      simp only [Function.update_self] at hy
      refine hi.good q y ?_
      rw [hx]
      simp only [List.mem_append, List.mem_cons] at hy ⊢
      tauto
    · simp only [Function.update_of_ne hq] at hy
      exact hi.good q y hy
  · intro q e hy
    by_cases hq : q = p
    · subst hq
      simp only [Function.update_self] at hy
      rcases List.mem_append.mp hy with hy | hy
      · exact hi.ok _ e hy
      · rw [List.mem_singleton.mp hy]; exact ⟨l, rfl⟩
    · simp only [Function.update_of_ne hq] at hy
      exact hi.ok q e hy

/-- What arrived and what is under way was written. -/
theorem NetInv.connects (hi : NetInv env st K n) (p : Bool) :
    (connectsOf ((n.wire p).map Flight.what) ++ connectsOf (n.arrived p)).Perm (connectsOf (n.wrote (!p))) := by
  rw [← connectsOf_append]; exact (hi.link p).filterMap _
theorem NetInv.acks (hi : NetInv env st K n) (p : Bool) :
    (acksOf ((n.wire p).map Flight.what) ++ acksOf (n.arrived p)).Perm (acksOf (n.wrote (!p))) := by
  rw [← acksOf_append]; exact (hi.link p).filterMap _
theorem NetInv.users (hi : NetInv env st K n) (p : Bool) :
    (usersOf ((n.wire p).map Flight.what) ++ usersOf (n.arrived p)).Perm (usersOf (n.wrote (!p))) := by
  rw [← usersOf_append]; exact (hi.link p).filterMap _

/-- Numbers on the way and numbers that have arrived are all different. -/
theorem NetInv.nodup (hi : NetInv env st K n) (p : Bool) :
    ((usersOf ((n.wire p).map Flight.what) ++ usersOf (n.arrived p)).map Prod.fst).Nodup := by
  rw [((hi.users p).map Prod.fst).nodup_iff, (hi.party (!p)).nums]
  exact List.nodup_range

theorem NetInv.count (hi : NetInv env st K n) (p : Bool) :
    (usersOf ((n.wire p).map Flight.what)).length + (usersOf (n.arrived p)).length < 2 ^ 64 := by
  have := (hi.users p).length_eq
  rw [List.length_append] at this
  rw [this]; exact (hi.party (!p)).bound

theorem Flow_append {D l l' : List Nat} : Flow D (l ++ l') ↔ Flow D l ∧ Flow (D ++ l) l' := by
  induction l generalizing D with
  | nil => simp [Flow]
  | cons x l ih => simp [Flow, ih, and_assoc]

/-- An ACK that arrives: the peer has read this party's CONNECT. -/
theorem NetInv.ack_cause (hi : NetInv env st K n) {p : Bool} (h : acksOf (n.wrote (!p)) ≠ []) :
    connectsOf (n.wrote p) ≠ [] := by
  have h1 := (hi.party (!p)).aw_ca h
  have h2 := hi.connects (!p)
  rw [Bool.not_not] at h2
  intro hc
  rw [hc] at h2
  have := h2.length_eq
  simp at this
  exact h1 this.2

/-- A user message that arrives: the peer has this party's ACK. -/
theorem NetInv.user_cause (hi : NetInv env st K n) {p : Bool} (h : usersOf (n.wrote (!p)) ≠ []) :
    acksOf (n.wrote p) ≠ [] ∧ acksOf (n.wrote (!p)) ≠ [] := by
  obtain ⟨h1, h3⟩ := (hi.party (!p)).uw_ready h
  refine ⟨?_, h3⟩
  have h2 := hi.acks (!p)
  rw [Bool.not_not] at h2
  intro hc
  rw [hc] at h2
  have := h2.length_eq
  simp only [List.length_append, List.length_nil, Nat.add_eq_zero_iff, List.length_eq_zero_iff] at this
  rw [this.2] at h1
  simp [ackRead] at h1

theorem NetInv.step (law : env.cr.Lawful) (hon : Honest env st)
    (hK : ∀ p, sessionKey env.cr (st p).random (env.cr.xPublic (st p).random) (env.cr.xPublic (st (!p)).random) = some K)
    (hks : ¬ ∀ i < 4, env.cr.keystream K.key K.nonce i = 0) {n' : Net} (hi : NetInv env st K n) (h : n.Step env n')
    (hf : n'.Fair) : NetInv env st K n' := by
  cases h with
  | connect p d w hfit =>
    apply hi.sent
    rcases (hi.party p).connect law d hfit.1 with ⟨-, e, he⟩ | ⟨hc, s', w', b, he, hb, hne, -, hg, hp⟩
    · exact .inl ⟨e, he⟩
    · refine .inr ⟨s', w', b, he, hb, hne, hg ?_, ?_⟩
      · have := hfit.2
        rw [he, hb] at this
        simpa using this
      · rw [connectsOf_append, acksOf_append, usersOf_append, hc]
        simpa using hp
  | ack p d w hfit =>
    apply hi.sent
    rcases (hi.party p).ack law d hfit.1 with ⟨-, e, he⟩ | ⟨-, hc, s', w', b, he, hb, hne, -, hg, hp⟩
    · exact .inl ⟨e, he⟩
    · refine .inr ⟨s', w', b, he, hb, hne, hg ?_, ?_⟩
      · have := hfit.2
        rw [he, hb] at this
        simpa using this
      · rw [connectsOf_append, acksOf_append, usersOf_append, hc]
        simpa using hp
  | user p d w hfit hcap hn hr =>
    apply hi.sent
    have har : ackRead (st p).expected (connectsOf (n.arrived p)) (acksOf (n.arrived p)) = true := by
      have := hr.2
      rw [(hi.party p).dl_ack] at this
      by_contra hc
      simp [hc] at this
    obtain ⟨s', w', b, he, hb, hne, -, hg, hp⟩ := (hi.party p).user law d hfit.1 hcap hn hr.1 har
    refine .inr ⟨s', w', b, he, hb, hne, hg ?_, ?_⟩
    · have := hfit.2
      rw [he, hb] at this
      simpa using this
    · rw [connectsOf_append, acksOf_append, usersOf_append]
      simpa using hp
  | config p c =>
    refine ⟨fun q => ?_, hi.link, hi.good, hi.ok⟩
    by_cases hq : q = p
    · subst hq
      simpa [Net.arrived, Net.delivered] using (hi.party q).config c
    · simpa [hq, Net.arrived, Net.delivered] using hi.party q
  | deliver p x l1 l2 hx =>
    apply hi.received hx
    have hg := hi.good p x (by rw [hx]; simp)
    have hcon := hi.connects p
    have hack := hi.acks p
    have husr := hi.users p
    have hnd := hi.nodup p
    have hcnt := hi.count p
    have hov := hf p
    simp only [Net.received, Net.arrived, Function.update_self, List.map_append, List.map_cons, List.map_nil,
      usersOf_append] at hov
    rw [hx] at hcon hack husr hnd hcnt
    obtain ⟨what, bytes⟩ := x
    have hparty := hi.party p
    cases what with
    | connect d =>
      have hca : connectsOf (n.arrived p) = [] := by
        have h1 := hcon.length_eq
        have h2 := (hi.party (!p)).one_cw
        simp only [List.map_append, List.map_cons, connectsOf_append, connectsOf_connect, List.length_append,
          List.length_cons] at h1
        exact List.length_eq_zero_iff.mp (by omega)
      rw [hca] at hparty
      obtain ⟨s', l, he, hp⟩ := hparty.readConnect law (hon.expected p) (hK p) hg
      refine ⟨s', l, he, ?_⟩
      rw [connectsOf_append, acksOf_append, usersOf_append, hca]
      simpa using hp
    | ack d =>
      have haa : acksOf (n.arrived p) = [] := by
        have h1 := hack.length_eq
        have h2 := (hi.party (!p)).one_aw
        simp only [List.map_append, List.map_cons, acksOf_append, acksOf_ack, List.length_append,
          List.length_cons] at h1
        exact List.length_eq_zero_iff.mp (by omega)
      have hw : acksOf (n.wrote (!p)) ≠ [] := by
        intro hc
        rw [hc] at hack
        have := hack.length_eq
        simp [acksOf_append] at this
      rw [haa] at hparty
      rw [List.map_append] at hnd
      obtain ⟨s', l, he, hp⟩ := hparty.readAck law (hon.expected p) (hi.ack_cause hw) (List.nodup_append.mp hnd).2.1
        (by omega) (by simpa [Net.arrived] using hov) hg
      refine ⟨s', l, he, ?_⟩
      rw [connectsOf_append, acksOf_append, usersOf_append, haa]
      simpa using hp
    | user m d =>
      have hw : usersOf (n.wrote (!p)) ≠ [] := by
        intro hc
        rw [hc] at husr
        have := husr.length_eq
        simp [usersOf_append] at this
      obtain ⟨h1, h2⟩ := hi.user_cause hw
      have hlen : (usersOf (n.arrived p)).length + 1 < 2 ^ 64 := by
        simp only [List.map_append, List.map_cons, usersOf_append, usersOf_user, List.length_append,
          List.length_cons] at hcnt
        omega
      have hnd' : ((usersOf (n.arrived p)).map Prod.fst ++ [m]).Nodup := by
        simp only [List.map_append, List.map_cons, usersOf_append, usersOf_user] at hnd
        rw [List.nodup_append] at hnd ⊢
        refine ⟨hnd.2.1, by simp, ?_⟩
        intro a ha b hb
        rw [List.mem_singleton.mp hb]
        exact (hnd.2.2 m (by simp) a ha).symm
      have hdel : Deliverable ((usersOf (n.arrived p)).map Prod.fst) m := by
        have := (flow_iff [] ((usersOf (n.arrived p)).map Prod.fst ++ [m]) (by simpa using hnd') (by simp)).mpr
          fun k _ => by simpa [Net.arrived] using hov k
        rw [Flow_append] at this
        exact this.2.1
      obtain ⟨s', l, he, hp⟩ := hparty.readUser law hks h1 (hi.ack_cause h2) hlen hdel hg
      refine ⟨s', l, he, ?_⟩
      rw [connectsOf_append, acksOf_append, usersOf_append]
      simpa using hp

theorem NetInv.init {n : Net} (h : n.Init env st) : NetInv env st K n where
  party p := by
    simpa [h.wrote, Net.arrived, Net.delivered, h.log] using Party.init (K := K) (h.layer p)
  link p := by simp [h.wrote, Net.arrived, h.wire, h.log]
  good p := by simp [h.wire]
  ok p := by simp [h.log]

theorem overtakers_mono (l : List Nat) (a m : Nat) : (overtakers l m).length ≤ (overtakers (l ++ [a]) m).length := by
  unfold overtakers
  refine List.Sublist.length_le (List.Sublist.filter _ ?_)
  by_cases h : ∀ x ∈ l, x ≠ m
  · rw [List.takeWhile_append_of_pos (by simpa using h), List.takeWhile_eq_self_iff.mpr (by simpa using h)]
    simp
  · rw [List.takeWhile_append]
    split
    · exfalso
      rename_i hc
      apply h
      have := (List.takeWhile_sublist (fun x => decide (x ≠ m)) (l := l)).eq_of_length hc
      have := List.takeWhile_eq_self_iff.mp this
      simpa using this
    · exact .refl _

/-- Fairness of the final state. -/
theorem Fair.of_step {n' : Net} (h : n.Step env n') (hf : n'.Fair) : n.Fair := by
  cases h with
  | connect => exact hf
  | ack => exact hf
  | user => exact hf
  | config => exact hf
  | deliver p x l1 l2 hx =>
    intro q m
    have := hf q m
    by_cases hq : q = p
    · subst hq
      simp only [Net.received, Net.arrived, Function.update_self, List.map_append, List.map_cons, List.map_nil,
        usersOf_append] at this
      refine le_trans ?_ this
      cases x.what with
      | connect d => simp [Net.arrived]
      | ack d => simp [Net.arrived]
      | user k d => exact overtakers_mono _ k m
    · simpa [Net.received, Net.arrived, hq] using this

theorem session_key (law : env.cr.Lawful) (hon : Honest env st) :
    ∃ K, (∀ p, sessionKey env.cr (st p).random (env.cr.xPublic (st p).random) (env.cr.xPublic (st (!p)).random) = some K) ∧
      ¬ ∀ i < 4, env.cr.keystream K.key K.nonce i = 0 := by
  obtain ⟨z, hz⟩ := Option.isSome_iff_exists.mp hon.agree
  obtain ⟨K, hK⟩ : ∃ K, sessionKey env.cr (st true).random (env.cr.xPublic (st true).random)
      (env.cr.xPublic (st false).random) = some K := by
    unfold sessionKey
    rw [hz]
    exact ⟨_, rfl⟩
  refine ⟨K, ?_, hon.keystream K hK⟩
  intro p
  cases p with
  | true => exact hK
  | false => rw [sessionKey_comm law]; exact hK

theorem NetInv.of_run (law : env.cr.Lawful) (hon : Honest env st)
    (hK : ∀ p, sessionKey env.cr (st p).random (env.cr.xPublic (st p).random) (env.cr.xPublic (st (!p)).random) = some K)
    (hks : ¬ ∀ i < 4, env.cr.keystream K.key K.nonce i = 0) {n : Net} (hr : n.Run env st) (hf : n.Fair) :
    NetInv env st K n := by
  induction hr with
  | init h => exact .init h
  | step hr h ih => exact (ih (Fair.of_step h hf)).step law hon hK hks h hf

end
end Pkstl
