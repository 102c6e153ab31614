import Verif.Spec.Unforged
import Verif.Props.CompleteHistory
import Verif.Props.Complete
/- C59: agreement with an honest peer in the presence of an active attacker. -/
namespace Pkstl
open Spec

variable {M M' : Type} {env : Env} {f f' : Features}

theorem frame_type (a b : UInt8) (t s : Bytes) : ((frame (a :: b :: t) ++ s).drop 16).take 2 = [a, b] := by
  rw [show frame (a :: b :: t) ++ s =
    ([0xE2, 0xC2, 0xE2, 0xD2] ++ [0, 0, 0, 1] ++ be64 (a :: b :: t).length) ++ ([a, b] ++ (t ++ s)) by simp [frame],
    List.drop_left' (by simp)]
  rfl

theorem frame_field (a b : UInt8) {x : Bytes} (t s : Bytes) (hx : x.length = 32) :
    ((frame (a :: b :: (x ++ t)) ++ s).drop 18).take 32 = x := by
  rw [show frame (a :: b :: (x ++ t)) ++ s =
    ([0xE2, 0xC2, 0xE2, 0xD2] ++ [0, 0, 0, 1] ++ be64 (a :: b :: (x ++ t)).length ++ [a, b]) ++ (x ++ (t ++ s)) by
      simp [frame],
    List.drop_left' (by simp), List.take_left' hx]

theorem wroteSigned_step {sl : SecureLayer} {op : COp M} {w w' : BufW}
    (h : (cstep env f sl op).2.wroteSigned = some (w, w')) :
    (∃ d sl', sl.writeConnectRaw env d w = (sl', w', .ok ())) ∨
    (∃ d, sl.writeAckRaw env d w = ((cstep env f sl op).1, w', .ok ())) := by
  cases op with
  | connectBin d v =>
    refine .inl (wroteConnect_step (M := M) (f := f) (op := .connectBin d v) ?_)
    rw [← h]
    simp only [cstep]
    rcases (sl.writeConnectBin env d v).2.2 with _ | _ | _ <;> rfl
  | connectSer c d v =>
    refine .inl (wroteConnect_step (f := f) (op := .connectSer c d v) ?_)
    rw [← h]
    simp only [cstep]
    rcases (sl.writeConnectSer env c d v).2.2 with _ | _ | _ <;> rfl
  | ackBin d v =>
    right
    simp only [cstep, CEvent.wroteSigned, SecureLayer.writeAckBin] at h ⊢
    rcases hr : sl.writeAckRaw env (d.map (sl.compress env.cr)) v with ⟨s1, w1, r⟩
    rw [hr] at h
    rcases r with _ | e | p <;> simp at h
    obtain ⟨rfl, rfl⟩ := h
    exact ⟨_, hr⟩
  | ackSer c d v =>
    right
    simp only [cstep, CEvent.wroteSigned, SecureLayer.writeAckSer] at h ⊢
    rcases hs : SecureLayer.serializeOpt env.cr c sl d with d' | e | p <;> rw [hs] at h <;> simp at h
    rcases hr : sl.writeAckRaw env d' v with ⟨s1, w1, r⟩
    rw [hr] at h
    rcases r with _ | e | p <;> simp at h
    obtain ⟨rfl, rfl⟩ := h
    exact ⟨d', by dsimp only; rw [hr]⟩
  | _ => simp [cstep, CEvent.wroteSigned] at h

/-- A signed message that a layer wrote: its CONNECT, or an ACK for a key that it read. -/
theorem wroteSigned_cases (law : env.cr.Lawful) {st : CStart} {h : List (CEvent M)} {sl : SecureLayer}
    (hr : CRun env f st h sl) {body : Bytes} (hb : WroteSigned h body) :
    (∃ p, body = connectFrame (env.cr.xPublic st.random) (env.cr.edPublic st.sigSeed) p) ∨
    ∃ e p, body = ackFrame (env.cr.sha256 e) p ∧ (∃ inc ∈ cinputs h, ∃ k, SignedConnect env.cr inc e k) ∧
      ∀ K, sessionKey env.cr st.random (env.cr.xPublic st.random) e = some K → sl.minimal.secret = some K := by
  obtain ⟨e, he, w, w', hw, hs, sig, hl, hst⟩ := hb
  obtain ⟨h1, h2, rfl⟩ := List.append_of_mem he
  obtain ⟨s1, s2, hr1, hs2, hr2, ⟨op, he1, hop⟩ | ⟨he1, -⟩⟩ := hr.at rfl
  swap
  · subst he1; simp [CEvent.wroteSigned] at hw
  subst he1
  have cut : ∀ {m}, w'.stream = w.stream ++ (m ++ env.cr.edSign st.sigSeed m) → body = m := by
    intro m hm
    rw [hm] at hst
    exact (List.append_inj' (List.append_cancel_left hst) (by rw [hl, law.edSign_length])).1.symm
  rcases wroteSigned_step hw with ⟨d, sl', h'⟩ | ⟨d, h'⟩
  · exact .inl ⟨_, cut (connectRaw_stream law hr1 h' (.inl hs))⟩
  · right
    rcases writeAckRaw_cases hr1.wf d w with ⟨_, hx⟩ | ⟨_, _, _, hx⟩ | ⟨seed, loc, epk', _, h2, h3, hx⟩
    · rw [h'] at hx; simp at hx
    · rw [h'] at hx; simp at hx
    obtain ⟨epk, h4, h5⟩ := ackRaw_stream law hr1 h'
    obtain rfl : epk' = epk := by rw [h3] at h4; exact Option.some.inj h4
    refine ⟨epk', _, cut (h5 (.inl hs)), ?_, ?_⟩
    · obtain ⟨⟨l, hlr, hlow⟩, -⟩ := hr1.lower
      obtain ⟨k, epk2, -, he', inc, hin, hsc⟩ := (Seen.of_run hlr).con _ _ h2 (by simp)
      obtain rfl : epk' = epk2 := by rw [h3] at he'; exact Option.some.inj he'
      rw [hlow.inputs] at hin
      refine ⟨inc, ?_, k, hsc⟩
      simp only [cinputs, List.flatMap_append]
      exact List.mem_append_left _ hin
    · intro K hK
      have hsec : s1.minimal.secret = some K := (hr1.wf.peer _ h3).trans hK
      obtain ⟨⟨l, hlr, -⟩, -⟩ := hr1.lower
      obtain ⟨l1, hl1, -⟩ := cstep_lower (f := f) hr1.wf op
      obtain ⟨l2, hl2, -⟩ := CSteps.lower hr2 hs2
      subst hop
      exact (C14_secret_stable hlr (hl1.trans hl2)).2 K hsec

variable {stA : CStart} {hA : List (CEvent M)} {a : SecureLayer} {pk : Bytes}

/-- A layer that can write user messages or be cloned, or that has handed over a user message, is vouched for. -/
theorem vouched_of_use (ra : CRun env f stA hA a)
    (huse : (∃ d w, (a.writeBin env d w).2.2 = .ok ()) ∨ (∃ c, a.tryClone.2 = .ok c) ∨ Kind.user ∈ ckinds hA) :
    ∃ k epk, Vouched env.cr stA.inner (cinputs hA) a.minimal.secret k epk := by
  rcases huse with h | h | h
  · exact C52_complete ra (.inl h)
  · exact C52_complete ra (.inr h)
  · obtain ⟨e, he, hk⟩ := List.mem_flatMap.mp h
    obtain ⟨h1, h2, hh⟩ := List.append_of_mem he
    obtain ⟨k, epk, ⟨i1, hi1, hc⟩, ⟨i2, hi2, ha⟩, hx⟩ := C52_complete_user ra hh hk
    have hsub : cinputs (h1 ++ [e]) ⊆ cinputs hA := by
      rw [hh]
      intro x hx
      simp only [cinputs, List.flatMap_append, List.flatMap_cons, List.flatMap_nil, List.append_nil, List.mem_append] at hx ⊢
      rcases hx with hx | hx <;> simp [hx]
    exact ⟨k, epk, ⟨i1, hsub hi1, hc⟩, ⟨i2, hsub hi2, ha⟩, hx⟩

/-- **C59.** A layer that expects an honest peer and is negotiated has its secret from the ephemeral key of a layer of that
peer, and the peer has answered this layer: one of its layers read a signed CONNECT for this layer's ephemeral key (up to
SHA-256 collisions) and computed its own secret with it. -/
theorem C59_peer (law : env.cr.Lawful) (ra : CRun env f stA hA a) (hexp : stA.expected = some pk)
    (huse : (∃ d w, (a.writeBin env d w).2.2 = .ok ()) ∨ (∃ c, a.tryClone.2 = .ok c) ∨ Kind.user ∈ ckinds hA)
    {B : CStart → List (CEvent M') → SecureLayer → Prop} (hB : ∀ st h sl, B st h sl → CRun env f' st h sl)
    (hun : Unforged env.cr pk (cinputs hA) B) :
    (∃ st h sl, B st h sl ∧
      a.minimal.secret = sessionKey env.cr stA.random (env.cr.xPublic stA.random) (env.cr.xPublic st.random)) ∧
    (∃ st h sl, B st h sl ∧ ∃ e, env.cr.sha256 e = env.cr.sha256 (env.cr.xPublic stA.random) ∧
      (∃ inc ∈ cinputs h, ∃ k, SignedConnect env.cr inc e k) ∧
      ∀ K, sessionKey env.cr st.random (env.cr.xPublic st.random) e = some K → sl.minimal.secret = some K) := by
  obtain ⟨k, epk, ⟨inc, hin, -, ht, hf, -, body, sig, rfl, hv⟩, ⟨inc', hin', -, ht', hf', body', sig', rfl, hv'⟩, hx, hsec⟩ :=
    vouched_of_use ra huse
  obtain rfl : k = pk := hx pk hexp
  constructor
  · obtain ⟨st, h, sl, hb, hw⟩ := hun _ hin _ _ rfl hv
    refine ⟨st, h, sl, hb, ?_⟩
    rcases wroteSigned_cases law (hB _ _ _ hb) hw with ⟨p, rfl⟩ | ⟨e, p, rfl, -⟩
    · have := frame_field 0 1 ([0, 0, 0, 0] ++ env.cr.edPublic st.sigSeed ++ p) sig (law.xPublic_length st.random)
      simp only [connectFrame, List.append_assoc, List.cons_append, List.nil_append] at hf this
      rw [this] at hf
      rw [hf]
      exact hsec
    · have := frame_type 0 2 (env.cr.sha256 e ++ p) sig
      simp only [ackFrame, List.cons_append, List.nil_append] at ht this
      rw [this] at ht
      simp at ht
  · obtain ⟨st, h, sl, hb, hw⟩ := hun _ hin' _ _ rfl hv'
    refine ⟨st, h, sl, hb, ?_⟩
    rcases wroteSigned_cases law (hB _ _ _ hb) hw with ⟨p, rfl⟩ | ⟨e, p, rfl, h1, h2⟩
    · have := frame_type 0 1 (env.cr.xPublic st.random ++ [0, 0, 0, 0] ++ env.cr.edPublic st.sigSeed ++ p) sig'
      simp only [connectFrame, List.append_assoc, List.cons_append, List.nil_append] at ht' this
      rw [this] at ht'
      simp at ht'
    · refine ⟨e, ?_, h1, h2⟩
      have := frame_field 0 2 p sig' (law.sha256_length e)
      simp only [ackFrame, List.cons_append, List.nil_append] at hf' this
      rw [this] at hf'
      exact hf'

/-- **C59.** If the honest peer uses its key in one session only, both sides have the same secret; the only assumption on
SHA-256 is that the ephemeral keys the peer has read do not collide with this layer's. -/
theorem C59_shared (law : env.cr.Lawful) (ra : CRun env f stA hA a) (hexp : stA.expected = some pk)
    {stB : CStart} {hB : List (CEvent M')} {b : SecureLayer} (rb : CRun env f' stB hB b)
    (hun : Unforged env.cr pk (cinputs hA) fun st h sl => st = stB ∧ h = hB ∧ sl = b)
    (hcol : ∀ inc ∈ cinputs hB, ∀ e k, SignedConnect env.cr inc e k →
      env.cr.sha256 e = env.cr.sha256 (env.cr.xPublic stA.random) → e = env.cr.xPublic stA.random)
    (huse : (∃ d w, (a.writeBin env d w).2.2 = .ok ()) ∨ Kind.user ∈ ckinds hA) :
    a.minimal.secret.isSome = true ∧ b.minimal.secret = a.minimal.secret := by
  obtain ⟨⟨_, _, _, ⟨rfl, rfl, rfl⟩, h1⟩, ⟨_, _, _, ⟨rfl, rfl, rfl⟩, e, h2, ⟨inc, hin, k, hk⟩, h3⟩⟩ :=
    C59_peer law ra hexp (huse.elim .inl fun h => .inr (.inr h)) (B := fun st h sl => st = stB ∧ h = hB ∧ sl = b)
      (by rintro _ _ _ ⟨rfl, rfl, rfl⟩; exact rb) hun
  obtain rfl := hcol inc hin e k hk h2
  rw [sessionKey_comm law] at h1
  have hs : a.minimal.secret.isSome = true := by
    rcases huse with ⟨d, w, huse⟩ | hu
    swap
    · obtain ⟨e, he, hk⟩ := List.mem_flatMap.mp hu
      obtain ⟨h1, h2, hh⟩ := List.append_of_mem he
      obtain ⟨xs, hsh, hg⟩ := C54_genuine ra hh
      rw [hsh.kinds] at hk
      obtain ⟨x, hx, hxk⟩ := List.mem_map.mp hk
      cases x <;> simp [BinMessage.kind] at hxk
      obtain ⟨k, -, -, hk, -⟩ := hg _ hx
      rw [hk]; rfl
    have hw : (a.minimal.writeMessage env (a.compress env.cr d) w).2.2 = .ok () := huse
    rcases writeMessage_cases env a.minimal (a.compress env.cr d) w with ⟨-, he⟩ | ⟨_, _, -, he⟩ | ⟨-, -, he⟩ |
      ⟨-, k, hk, -⟩
    · rw [he] at hw; simp at hw
    · rw [he] at hw; simp at hw
    · rw [he] at hw; simp at hw
    · rw [hk]; rfl
  refine ⟨hs, ?_⟩
  obtain ⟨K, hK⟩ := Option.isSome_iff_exists.mp hs
  rw [hK]
  rw [hK] at h1
  exact h3 K h1.symm

/-- Party A expects B, B expects nobody, and the network hands over B's messages. -/
example (oc : Bool) : ∃ (hA hB : List (CEvent Unit)) (a b : SecureLayer),
    CRun (Toy.env oc) f { Toy.cstA with expected := some Toy.pkB } hA a ∧ CRun (Toy.env oc) f Toy.cstB hB b ∧
    Unforged Toy.cr Toy.pkB (cinputs hA) (fun st h sl => st = Toy.cstB ∧ h = hB ∧ sl = b) ∧
    (∀ inc ∈ cinputs hB, ∀ e k, SignedConnect Toy.cr inc e k → Toy.cr.sha256 e = Toy.cr.sha256 (Toy.xpub [1]) →
      e = Toy.xpub [1]) ∧
    (a.writeBin (Toy.env oc) [5] Toy.sink).2.2 = .ok () := by
  -- party B
  have s1 : ((Toy.csB (Toy.layer0 [2] none)).readBin (Toy.env oc) Toy.cconA).1 = Toy.csB Toy.b1 := by
    cases oc <;> decide +kernel
  have rb0 : CRun (M := Unit) (Toy.env oc) f Toy.cstB [] (Toy.csB (Toy.layer0 [2] none)) := .init rfl
  have rb1 := rb0.call (.readBin Toy.cconA)
  simp only [cstep, s1] at rb1
  obtain ⟨w1, c1, c2, -⟩ := writeConnectBin_good (env := Toy.env oc) (sl := Toy.csB Toy.b1)
    (rem := .validConnectMsgReceived) rfl rfl none (w := Toy.sink) rfl
  have rb2 := rb1.call (.connectBin none Toy.sink)
  simp only [cstep, c1] at rb2
  replace rb2 : CRun (M := Unit) (Toy.env oc) f Toy.cstB _ (Toy.csB Toy.b2) := rb2
  obtain ⟨w2, k1, k2, -⟩ := writeAckBin_good (env := Toy.env oc) (sl := Toy.csB Toy.b2) rb2.wf rfl rfl rfl none
    (w := Toy.sink) rfl
  have rb3 := rb2.call (.ackBin none Toy.sink)
  rw [show cstep (Toy.env oc) f (Toy.csB Toy.b2) (.ackBin none Toy.sink : COp Unit) =
    (Toy.csB Toy.b3, .ackBin none Toy.sink w2 (.ok ())) by simp only [cstep, k1]; rfl] at rb3
  -- party A
  have t2 : ((Toy.csA { Toy.a1 with peerSigPubkey := some Toy.pkB }).readBin (Toy.env oc) Toy.cconB).1 =
      Toy.csA Toy.a2 := by cases oc <;> decide +kernel
  have t3 : ((Toy.csA Toy.a2).readBin (Toy.env oc) Toy.cackB).1 = Toy.csA Toy.a3 := by cases oc <;> decide +kernel
  have ra0 : CRun (M := Unit) (Toy.env oc) f { Toy.cstA with expected := some Toy.pkB } []
    (Toy.csA (Toy.layer0 [1] (some Toy.pkB))) := .init rfl
  have step : ∀ {h : List (CEvent Unit)} {sl sl'} (op : COp Unit), (cstep (Toy.env oc) f sl op).1 = sl' →
      CRun (Toy.env oc) f { Toy.cstA with expected := some Toy.pkB } h sl →
      CRun (Toy.env oc) f { Toy.cstA with expected := some Toy.pkB } (h ++ [(cstep (Toy.env oc) f sl op).2]) sl' :=
    fun op he hr => he ▸ hr.call op
  have ra1 := step (sl' := Toy.csA { Toy.a1 with peerSigPubkey := some Toy.pkB }) (.connectBin (some [7, 8]) Toy.sink) rfl ra0
  have ra2 := step (sl' := Toy.csA Toy.a2) (.readBin Toy.cconB) (by simp only [cstep]; exact t2) ra1
  have ra3 := step (sl' := Toy.csA Toy.a3) (.readBin Toy.cackB) (by simp only [cstep]; exact t3) ra2
  have ra4 := step (sl' := Toy.csA Toy.a4) (.ackBin (some []) Toy.sink) rfl ra3
  refine ⟨_, _, _, _, ra4, rb3, ?_, ?_, ?_⟩
  · intro inc hin body sig hb hv
    refine ⟨_, _, _, ⟨rfl, rfl, rfl⟩, ?_⟩
    have hl : sig.length = 64 := Toy.lawful.edVerify_length _ _ _ hv
    have hin' : inc = Toy.cconB ∨ inc = Toy.cackB := by simpa [cinputs, cstep, CEvent.input] using hin
    rcases hin' with rfl | rfl
    · obtain ⟨rfl, -⟩ := List.append_inj' (show _ ++ _ = body ++ sig from hb) (by rw [hl]; exact Toy.pad_length _ _)
      exact ⟨.connectBin none Toy.sink w1 (.ok ()), by simp, Toy.sink, w1, rfl, rfl, _, Toy.pad_length _ _, c2⟩
    · obtain ⟨rfl, -⟩ := List.append_inj' (show _ ++ _ = body ++ sig from hb) (by rw [hl]; exact Toy.pad_length _ _)
      exact ⟨.ackBin none Toy.sink w2 (.ok ()), by simp, Toy.sink, w2, rfl, rfl, _, Toy.pad_length _ _, k2⟩
  · intro inc hin e k hsc _
    have hin' : inc = Toy.cconA := by simpa [cinputs, cstep, CEvent.input] using hin
    subst hin'
    rw [← hsc.2.2.1]
    decide +kernel
  · obtain ⟨w', h1, -⟩ := writeBin_good (env := Toy.env oc) (sl := Toy.csA Toy.a4) Toy.lawful rfl rfl [5]
      (w := Toy.sink) rfl (by decide) (by decide)
    rw [h1]

end Pkstl
