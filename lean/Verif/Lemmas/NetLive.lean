import Verif.Lemmas.NetInv
/- From every state of the two-party system the negotiation can be completed. -/
namespace Pkstl
open Spec

section
variable {env : Env} {st : Bool → CStart} {K : SecretKey} {n : Net}

/-- Nothing that was written or has arrived is forgotten. -/
theorem Spec.Net.Step.mono {n' : Net} (h : n.Step env n') (p : Bool) :
    n.wrote p <+: n'.wrote p ∧ n.arrived p <+: n'.arrived p := by
  have aux : ∀ {q : Bool} {l : List Sent}, n.wrote p <+: Function.update n.wrote q (n.wrote q ++ l) p := by
    intro q l
    by_cases hq : p = q
    · subst hq; simp
    · simp [hq]
  cases h with
  | connect q d w => exact ⟨aux, List.prefix_rfl⟩
  | ack q d w => exact ⟨aux, List.prefix_rfl⟩
  | user q d w => exact ⟨aux, List.prefix_rfl⟩
  | config q c => exact ⟨List.prefix_rfl, List.prefix_rfl⟩
  | deliver q x l1 l2 hx =>
    refine ⟨List.prefix_rfl, ?_⟩
    by_cases hq : p = q
    · subst hq; simp [Net.received, Net.arrived]
    · simp [Net.received, Net.arrived, hq]

theorem Spec.Net.Steps.mono {n' : Net} (h : n.Steps env n') (p : Bool) :
    n.wrote p <+: n'.wrote p ∧ n.arrived p <+: n'.arrived p := by
  induction h with
  | refl => exact ⟨List.prefix_rfl, List.prefix_rfl⟩
  | step _ h ih => exact ⟨ih.1.trans (h.mono p).1, ih.2.trans (h.mono p).2⟩

theorem Spec.Net.Steps.trans {n' n'' : Net} (h : n.Steps env n') (h' : n'.Steps env n'') : n.Steps env n'' := by
  induction h' with
  | refl => exact h
  | step _ hs ih => exact .step ih hs

theorem Spec.Net.Steps.run {n' : Net} (h : n.Steps env n') (hr : n.Run env st) : n'.Run env st := by
  induction h with
  | refl => exact hr
  | step _ hs ih => exact .step ih hs

/-- A call without data, or a delivery. -/
inductive Spec.Net.BareStep (env : Env) (n : Net) : Net → Prop where
  | connect (p : Bool) (w : BufW) (hf : Fits w ((n.layer p).writeConnectBin env none w)) :
      BareStep env n (n.sent p (.connect none) w ((n.layer p).writeConnectBin env none w))
  | ack (p : Bool) (w : BufW) (hf : Fits w ((n.layer p).writeAckBin env none w)) :
      BareStep env n (n.sent p (.ack none) w ((n.layer p).writeAckBin env none w))
  | deliver (p : Bool) (x : Flight) (l1 l2 : List Flight) (hx : n.wire p = l1 ++ x :: l2) :
      BareStep env n (n.received env p x (l1 ++ l2))

inductive Spec.Net.Bare (env : Env) (n : Net) : Net → Prop where
  | refl : Bare env n n
  | step {n' n'' : Net} (hr : Bare env n n') (h : n'.BareStep env n'') : Bare env n n''

theorem Spec.Net.BareStep.step {n' : Net} (h : n.BareStep env n') : n.Step env n' := by
  cases h with
  | connect p w hf => exact .connect p none w hf
  | ack p w hf => exact .ack p none w hf
  | deliver p x l1 l2 hx => exact .deliver p x l1 l2 hx

theorem Spec.Net.Bare.steps {n' : Net} (h : n.Bare env n') : n.Steps env n' := by
  induction h with
  | refl => exact .refl
  | step _ h ih => exact .step ih h.step

theorem Spec.Net.Bare.trans {n' n'' : Net} (h : n.Bare env n') (h' : n'.Bare env n'') : n.Bare env n'' := by
  induction h' with
  | refl => exact h
  | step _ hs ih => exact .step ih hs

theorem Spec.Net.Bare.mono {n' : Net} (h : n.Bare env n') (p : Bool) :
    n.wrote p <+: n'.wrote p ∧ n.arrived p <+: n'.arrived p := h.steps.mono p

/-- What `p` needs to be negotiated, one after the other. -/
theorem exists_connect (law : env.cr.Lawful) (hi : NetInv env st K n) (hf : n.Fair) (p : Bool) :
    ∃ n', n.Bare env n' ∧ n'.Fair ∧ connectsOf (n'.wrote p) ≠ [] := by
  by_cases hc : connectsOf (n.wrote p) = []
  swap
  · exact ⟨n, .refl, hf, hc⟩
  rcases (hi.party p).connect law none (w := ⟨8192, [], ⟨[], []⟩⟩) rfl with ⟨h1, -⟩ | ⟨-, s', w', b, he, hb, -, hl, -⟩
  · exact absurd hc h1
  · refine ⟨_, .step .refl (.connect p ⟨8192, [], ⟨[], []⟩⟩ ⟨rfl, ?_⟩), hf, ?_⟩
    · rw [he, hb]; simpa using hl rfl
    · rw [he]; simp [Net.sent, connectsOf_append]

theorem exists_ack (law : env.cr.Lawful) (hi : NetInv env st K n) (hf : n.Fair) (p : Bool)
    (hca : connectsOf (n.arrived p) ≠ []) : ∃ n', n.Bare env n' ∧ n'.Fair ∧ acksOf (n'.wrote p) ≠ [] := by
  by_cases hc : acksOf (n.wrote p) = []
  swap
  · exact ⟨n, .refl, hf, hc⟩
  rcases (hi.party p).ack law none (w := ⟨8192, [], ⟨[], []⟩⟩) rfl with ⟨h1, -⟩ | ⟨-, -, s', w', b, he, hb, -, hl, -⟩
  · tauto
  · refine ⟨_, .step .refl (.ack p ⟨8192, [], ⟨[], []⟩⟩ ⟨rfl, ?_⟩), hf, ?_⟩
    · rw [he, hb]; simpa using hl rfl
    · rw [he]; simp [Net.sent, acksOf_append]

/-- A message other than a user message can be delivered. -/
theorem exists_deliver (hf : n.Fair) {p : Bool} {x : Flight} (hx : x ∈ n.wire p) (hu : x.what.user? = none) :
    ∃ n', n.Bare env n' ∧ n'.Fair ∧ n'.arrived p = n.arrived p ++ [x.what] := by
  obtain ⟨l1, l2, hx⟩ := List.append_of_mem hx
  refine ⟨_, .step .refl (.deliver p x l1 l2 hx), ?_, ?_⟩
  · intro q m
    by_cases hq : q = p
    · subst hq
      have := hf q m
      simpa [Net.received, Net.arrived, usersOf, hu] using this
    · have := hf q m
      simpa [Net.received, Net.arrived, hq] using this
  · simp [Net.received, Net.arrived]

theorem exists_arrive_connect (hi : NetInv env st K n) (hf : n.Fair) (p : Bool) (hw : connectsOf (n.wrote (!p)) ≠ []) :
    ∃ n', n.Bare env n' ∧ n'.Fair ∧ connectsOf (n'.arrived p) ≠ [] := by
  by_cases hc : connectsOf (n.arrived p) = []
  swap
  · exact ⟨n, .refl, hf, hc⟩
  have h := hi.connects p
  rw [hc, List.append_nil] at h
  obtain ⟨d, hd⟩ := List.exists_mem_of_ne_nil _ hw
  have hd := h.mem_iff.mpr hd
  unfold connectsOf at hd
  obtain ⟨y, hy, hyd⟩ := List.mem_filterMap.mp hd
  obtain ⟨x, hx, rfl⟩ := List.mem_map.mp hy
  have hu : x.what = .connect d := by
    cases hxw : x.what <;> rw [hxw] at hyd <;> simp [Sent.connect?] at hyd
    rw [hyd]
  obtain ⟨n', h1, h2, h3⟩ := exists_deliver (env := env) hf hx (by rw [hu]; rfl)
  exact ⟨n', h1, h2, by rw [h3, hu]; simp [connectsOf_append]⟩

theorem exists_arrive_ack (hi : NetInv env st K n) (hf : n.Fair) (p : Bool) (hw : acksOf (n.wrote (!p)) ≠ []) :
    ∃ n', n.Bare env n' ∧ n'.Fair ∧ acksOf (n'.arrived p) ≠ [] := by
  by_cases hc : acksOf (n.arrived p) = []
  swap
  · exact ⟨n, .refl, hf, hc⟩
  have h := hi.acks p
  rw [hc, List.append_nil] at h
  obtain ⟨d, hd⟩ := List.exists_mem_of_ne_nil _ hw
  have hd := h.mem_iff.mpr hd
  unfold acksOf at hd
  obtain ⟨y, hy, hyd⟩ := List.mem_filterMap.mp hd
  obtain ⟨x, hx, rfl⟩ := List.mem_map.mp hy
  have hu : x.what = .ack d := by
    cases hxw : x.what <;> rw [hxw] at hyd <;> simp [Sent.ack?] at hyd
    rw [hyd]
  obtain ⟨n', h1, h2, h3⟩ := exists_deliver (env := env) hf hx (by rw [hu]; rfl)
  exact ⟨n', h1, h2, by rw [h3, hu]; simp [acksOf_append]⟩

theorem connectsOf_grow {l l' : List Sent} (h : l <+: l') (hl : connectsOf l ≠ []) : connectsOf l' ≠ [] := by
  obtain ⟨r, rfl⟩ := h
  rw [connectsOf_append]
  simp [hl]

theorem acksOf_grow {l l' : List Sent} (h : l <+: l') (hl : acksOf l ≠ []) : acksOf l' ≠ [] := by
  obtain ⟨r, rfl⟩ := h
  rw [acksOf_append]
  simp [hl]

theorem exists_ready (law : env.cr.Lawful) (hon : Honest env st) (hr : n.Run env st) (hf : n.Fair) :
    ∃ n', n.Bare env n' ∧ n'.Fair ∧ ∀ p, n'.ready p := by
  obtain ⟨K, hK, hks⟩ := session_key law hon
  have inv : ∀ {m : Net}, n.Bare env m → m.Fair → NetInv env st K m := fun h hf =>
    NetInv.of_run law hon hK hks (h.steps.run hr) hf
  obtain ⟨n1, s1, f1, c1⟩ := exists_connect law (inv .refl hf) hf true
  obtain ⟨n2, s2, f2, c2⟩ := exists_connect law (inv s1 f1) f1 false
  have c1' := connectsOf_grow (s2.mono true).1 c1
  replace s2 := s1.trans s2
  obtain ⟨n3, s3, f3, c3⟩ := exists_arrive_connect (inv s2 f2) f2 true c2
  have c1'' := connectsOf_grow (s3.mono true).1 c1'
  replace s3 := s2.trans s3
  obtain ⟨n4, s4, f4, c4⟩ := exists_arrive_connect (inv s3 f3) f3 false c1''
  have c3' := connectsOf_grow (s4.mono true).2 c3
  replace s4 := s3.trans s4
  obtain ⟨n5, s5, f5, a5⟩ := exists_ack law (inv s4 f4) f4 true c3'
  have c4' := connectsOf_grow (s5.mono false).2 c4
  have c5 := connectsOf_grow (s5.mono true).2 c3'
  replace s5 := s4.trans s5
  obtain ⟨n6, s6, f6, a6⟩ := exists_ack law (inv s5 f5) f5 false c4'
  have a5' := acksOf_grow (s6.mono true).1 a5
  have c6 := connectsOf_grow (s6.mono true).2 c5
  have c6' := connectsOf_grow (s6.mono false).2 c4'
  replace s6 := s5.trans s6
  obtain ⟨n7, s7, f7, a7⟩ := exists_arrive_ack (inv s6 f6) f6 true a6
  have a5'' := acksOf_grow (s7.mono true).1 a5'
  have a6' := acksOf_grow (s7.mono false).1 a6
  have c7 := connectsOf_grow (s7.mono true).2 c6
  have c7' := connectsOf_grow (s7.mono false).2 c6'
  replace s7 := s6.trans s7
  obtain ⟨n8, s8, f8, a8⟩ := exists_arrive_ack (inv s7 f7) f7 false a5''
  have a7' := acksOf_grow (s8.mono true).2 a7
  have b8 := acksOf_grow (s8.mono true).1 a5''
  have b8' := acksOf_grow (s8.mono false).1 a6'
  have c8 := connectsOf_grow (s8.mono true).2 c7
  have c8' := connectsOf_grow (s8.mono false).2 c7'
  replace s8 := s7.trans s8
  have hready : ∀ p, n8.ready p := by
    intro p
    have hi := (inv s8 f8).party p
    have key : acksOf (n8.wrote p) ≠ [] → connectsOf (n8.arrived p) ≠ [] → acksOf (n8.arrived p) ≠ [] → n8.ready p := by
      intro h1 h2 h3
      refine ⟨h1, ?_⟩
      have e1 : (connectsOf (n8.arrived p)).isEmpty = false := by simpa using h2
      have e2 : (acksOf (n8.arrived p)).isEmpty = false := by simpa using h3
      rw [hi.dl_ack]
      simpa [ackRead, e1, e2] using h3
    cases p
    · exact key b8' c8' a8
    · exact key b8 c8 a7'
  exact ⟨n8, s8, f8, hready⟩

end
end Pkstl
