import Verif.Spec.Duplex
import Verif.Props.CSplit
import Verif.Props.Net
/- A divided party behaves like one with a single layer. -/
namespace Pkstl
open Spec

section
variable {env : Env} {st : Bool → CStart} {K : SecretKey}

/-- `w` and `r` together stand for the single layer `s`. -/
structure Halves (env : Env) (s w r : SecureLayer) : Prop where
  sp : CSplit s w r
  ok : s.minimal.status = .success
  wc : w.minimal.cloned = true
  rc : r.minimal.cloned = true
  run : ∃ (st : CStart) (h : List (CEvent Unit)), CRun env ⟨true, true, true⟩ st h r

theorem Halves.at {s w r : SecureLayer} (h : Halves env s w r) (e : Bool) :
    ((Ends.two w r).at e).minimal.status = .success ∧ ((Ends.two w r).at e).minimal.cloned = true := by
  cases e
  · exact ⟨h.sp.rx.status.trans h.ok, h.rc⟩
  · exact ⟨h.sp.tx.status.trans h.ok, h.wc⟩

theorem connect_refused {s : SecureLayer} (hs : s.minimal.status = .success) (d : Option Bytes) (w : BufW) :
    ∃ e, s.writeConnectBin env d w = (s, w, .err e) := by
  unfold SecureLayer.writeConnectBin SecureLayer.writeConnectRaw
  rcases s with ⟨m, _ | seed⟩
  · exact ⟨_, rfl⟩
  · simp only [Layer.createConnect] at hs ⊢
    rw [hs]
    cases m
    dsimp only at hs
    subst hs
    exact ⟨_, rfl⟩

theorem ack_refused {s : SecureLayer} (hs : s.minimal.status = .success) (d : Option Bytes) (w : BufW) :
    ∃ e, s.writeAckBin env d w = (s, w, .err e) := by
  unfold SecureLayer.writeAckBin SecureLayer.writeAckRaw
  rcases s with ⟨m, _ | seed⟩
  · exact ⟨_, rfl⟩
  · simp only [Layer.createAck] at hs ⊢
    rw [hs]
    cases m
    dsimp only at hs
    subst hs
    exact ⟨_, rfl⟩

theorem config_refused {s : SecureLayer} (hs : s.minimal.cloned = true) (c : Config) :
    s.changeConfig c = (s, .err .forbidChangeConfAfterClone) := by
  unfold SecureLayer.changeConfig Layer.changeConfig
  rw [hs]
  rfl

theorem _root_.Pkstl.Spec.Ends.cases (x : Ends) : (∃ s, x = .one s) ∨ ∃ a b, x = .two a b := by
  cases x
  · exact .inl ⟨_, rfl⟩
  · exact .inr ⟨_, _, rfl⟩

theorem Ends.put_at (x : Ends) (e : Bool) : x.put e (x.at e) = x := by
  cases x <;> cases e <;> rfl

theorem Duplex.sent_err (n : Duplex) (p e : Bool) (x : Sent) (w : BufW) (er : Error) :
    n.sent p e x w ((n.ends p).at e, w, .err er) = n := by
  unfold Duplex.sent
  simp [Ends.put_at]

/-- What may change of a divided party's layer when it is cloned again. -/
theorem CSplit.clone {s w r x : SecureLayer} (h : CSplit s w r) :
    (x.minimal.secret = w.minimal.secret → x.minimal.nextNonceSent = w.minimal.nextNonceSent →
      x.minimal.status = w.minimal.status → x.minimal.config = w.minimal.config → CSplit s x r) ∧
    (SameRx x.minimal r.minimal → CSplit s w x) := by
  refine ⟨fun h1 h2 h3 h4 => ⟨h.rx, ⟨h1.trans h.tx.secret, h2.trans h.tx.sent, h3.trans h.tx.status⟩,
    h4.trans h.config⟩, fun h1 => ⟨⟨h1.secret.trans h.rx.secret, h1.next.trans h.rx.next, h1.orphans.trans h.rx.orphans,
    h1.status.trans h.rx.status, h1.stack.trans h.rx.stack⟩, h.tx, h.config⟩⟩

theorem spare_eq {s : SecureLayer} (hs : s.minimal.status = .success) :
    s.tryClone.1 = { s with minimal := { s.minimal with cloned := true } } := by
  unfold SecureLayer.tryClone Layer.tryClone
  rw [if_pos hs]

/-- The system `n` of divided parties and a system `m` of single layers that show the same. -/
structure DSim (env : Env) (n : Duplex) (m : Net) : Prop where
  wire : m.wire = n.wire
  wrote : m.wrote = n.wrote
  log : m.log = n.log
  one : ∀ p s, n.ends p = .one s → m.layer p = s
  two : ∀ p w r, n.ends p = .two w r → Halves env (m.layer p) w r

theorem DSim.at_one {n : Duplex} {m : Net} (h : DSim env n m) {p : Bool} {s : SecureLayer} (hs : n.ends p = .one s)
    (e : Bool) : (n.ends p).at e = m.layer p := by
  rw [h.one p s hs, hs]
  rfl

/-- Only the layers of `p` change. -/
theorem DSim.update {n n' : Duplex} {m m' : Net} (h : DSim env n m) (hw : m'.wire = n'.wire) (ho : m'.wrote = n'.wrote)
    (hl : m'.log = n'.log) {p : Bool} {x : Ends} {s : SecureLayer} (hn : n'.ends = Function.update n.ends p x)
    (hm : m'.layer = Function.update m.layer p s) (hone : ∀ a, x = .one a → s = a)
    (htwo : ∀ a b, x = .two a b → Halves env s a b) : DSim env n' m' := by
  refine ⟨hw, ho, hl, fun q a hq => ?_, fun q a b hq => ?_⟩
  · rw [hn] at hq
    rw [hm]
    by_cases hp : q = p
    · subst hp
      rw [Function.update_self] at hq ⊢
      exact hone a hq
    · rw [Function.update_of_ne hp] at hq ⊢
      exact h.one q a hq
  · rw [hn] at hq
    rw [hm]
    by_cases hp : q = p
    · subst hp
      rw [Function.update_self] at hq ⊢
      exact htwo a b hq
    · rw [Function.update_of_ne hp] at hq ⊢
      exact h.two q a b hq

/-- The outcome of a writing call. -/
theorem DSim.sent {n : Duplex} {m : Net} (h : DSim env n m) {p e : Bool} {x : Sent} {w : BufW}
    {o o' : SecureLayer × BufW × Res Unit} (ho : o'.2 = o.2) (hone : ∀ a, (n.ends p).put e o.1 = .one a → o'.1 = a)
    (htwo : ∀ a b, (n.ends p).put e o.1 = .two a b → Halves env o'.1 a b) :
    DSim env (n.sent p e x w o) (m.sent p x w o') := by
  refine h.update ?_ ?_ h.log rfl rfl hone htwo
  · simp only [Net.sent, Duplex.sent, ho, h.wire]
  · simp only [Net.sent, Duplex.sent, ho, h.wrote]

/-- What is under way to a negotiated party is a user message. -/
theorem NetInv.only_users {m : Net} (hi : NetInv env st K m) {p : Bool} (hs : (m.layer p).minimal.status = .success)
    {x : Flight} (hx : x ∈ m.wire p) : ∃ k d, x.what = .user k d := by
  have hst := (hi.party p).status
  rw [hs] at hst
  have har : ackRead (st p).expected (connectsOf (m.arrived p)) (acksOf (m.arrived p)) = true ∧ acksOf (m.wrote p) ≠ [] := by
    unfold stat at hst
    split at hst
    · rename_i h
      simp only [Bool.and_eq_true, Bool.not_eq_true', List.isEmpty_eq_false_iff] at h
      exact h
    · simp at hst
  have hca := (hi.party p).aw_ca har.2
  have haa : acksOf (m.arrived p) ≠ [] := by
    intro hc
    rw [hc] at har
    simp [ackRead] at har
  have h1 := (hi.connects p).length_eq
  have h2 := (hi.acks p).length_eq
  have h3 := (hi.party (!p)).one_cw
  have h4 := (hi.party (!p)).one_aw
  rw [List.length_append] at h1 h2
  have h5 := List.length_pos_iff.mpr hca
  have h6 := List.length_pos_iff.mpr haa
  have h7 : connectsOf ((m.wire p).map Flight.what) = [] := List.length_eq_zero_iff.mp (by omega)
  have h8 : acksOf ((m.wire p).map Flight.what) = [] := List.length_eq_zero_iff.mp (by omega)
  have hm : x.what ∈ (m.wire p).map Flight.what := List.mem_map_of_mem hx
  cases hw : x.what with
  | connect d =>
    have := List.filterMap_eq_nil_iff.mp h7 _ hm
    rw [hw] at this; simp [Sent.connect?] at this
  | ack d =>
    have := List.filterMap_eq_nil_iff.mp h8 _ hm
    rw [hw] at this; simp [Sent.ack?] at this
  | user k d => exact ⟨k, d, rfl⟩

/-- What is under way to a negotiated party does not start like a message in clear. -/
theorem NetInv.veiled {m : Net} (hi : NetInv env st K m) (hks : ¬ ∀ i < 4, env.cr.keystream K.key K.nonce i = 0) {p : Bool}
    (hs : (m.layer p).minimal.status = .success) {x : Flight} (hx : x ∈ m.wire p) :
    x.bytes.take 4 ≠ [0xE2, 0xC2, 0xE2, 0xD2] := by
  obtain ⟨k, d, hw⟩ := hi.only_users hs hx
  have := hi.good p x hx
  rw [hw] at this
  obtain ⟨z, -, hb, -⟩ := this
  rw [hb]
  exact sealed_take4 hks

/-- Statuses never leave `success` while the system is fair. -/
theorem NetInv.success_step (law : env.cr.Lawful) (hon : Honest env st)
    (hK : ∀ p, sessionKey env.cr (st p).random (env.cr.xPublic (st p).random) (env.cr.xPublic (st (!p)).random) = some K)
    (hks : ¬ ∀ i < 4, env.cr.keystream K.key K.nonce i = 0) {m m' : Net} (hi : NetInv env st K m) (hr : m.Run env st)
    (h : m.Step env m') (hf : m'.Fair) {p : Bool} (hs : (m.layer p).minimal.status = .success) :
    (m'.layer p).minimal.status = .success := by
  have hr' : m'.Run env st := .step hr h
  have h1 := ((C15_status law hon hr (Fair.of_step h hf)).1 p).mp hs
  refine ((C15_status law hon hr' hf).1 p).mpr ?_
  obtain ⟨a, b⟩ := h1
  have sent : ∀ q x w o, (m.sent q x w o).ready p := by
    intro q x w o
    constructor
    · by_cases hq : p = q
      · subst hq
        simp only [Net.sent, Function.update_self, acksOf_append]
        intro hc
        exact a (List.append_eq_nil_iff.mp hc).1
      · simpa only [Net.sent, Function.update_of_ne hq] using a
    · exact b
  cases h with
  | connect => exact sent _ _ _ _
  | ack => exact sent _ _ _ _
  | user => exact sent _ _ _ _
  | config => exact ⟨a, b⟩
  | deliver q x l1 l2 hx =>
    refine ⟨a, ?_⟩
    by_cases hq : p = q
    · subst hq
      simp only [Net.received, Net.delivered, Function.update_self, List.flatMap_append, acksIn_append]
      intro hc
      exact b (List.append_eq_nil_iff.mp hc).1
    · simpa only [Net.received, Net.delivered, Function.update_of_ne hq] using b

theorem DSim.fair {n : Duplex} {m : Net} (h : DSim env n m) : m.Fair ↔ n.Fair := by
  unfold Duplex.Fair Net.Fair Net.arrived
  rw [h.log]
  rfl

theorem DSim.ready {n : Duplex} {m : Net} (h : DSim env n m) (p : Bool) : m.ready p ↔ n.ready p := by
  unfold Duplex.ready Net.ready Net.delivered
  rw [h.log, h.wrote]
  rfl

/-- A writing call of a divided party. -/
theorem Halves.write {s w r : SecureLayer} (h : Halves env s w r) (d : Bytes) (bw : BufW) :
    (w.writeBin env d bw).2 = (s.writeBin env d bw).2 ∧
    ((s.writeBin env d bw).1.minimal.status = .success →
      Halves env (s.writeBin env d bw).1 (w.writeBin env d bw).1 r) := by
  unfold SecureLayer.writeBin SecureLayer.compress
  rw [h.sp.config]
  obtain ⟨e1, e2⟩ := h.sp.write (env := env) (env.cr.deflate (if d.length < s.minimal.config.compressionMinSize then 0
            else s.minimal.config.compression) d) bw
  refine ⟨e1, fun hs => ⟨e2 hs, hs, ?_, h.rc, h.run⟩⟩
  rw [← h.wc]
  unfold SecureLayer.writeBinRaw
  rcases writeMessage_cases env w.minimal (env.cr.deflate (if d.length < s.minimal.config.compressionMinSize then 0
            else s.minimal.config.compression) d) bw with ⟨-, he⟩ | ⟨_, _, -, he⟩ | ⟨-, -, he⟩ |
    ⟨-, k, hk, ⟨w', e, -, he⟩ | ⟨w', -, ⟨n, -, he⟩ | ⟨-, he⟩⟩⟩ <;> rw [he]

/-- A reading call of a divided party. -/
theorem Halves.read {st : Start} {s w r : SecureLayer} (h : Halves env s w r) (hw : Wf env st s.minimal) {inc : Bytes}
    (hi : inc.take 4 ≠ [0xE2, 0xC2, 0xE2, 0xD2]) :
    (r.readBin env inc).2 = (s.readBin env inc).2 ∧
    ((s.readBin env inc).1.minimal.status = .success →
      Halves env (s.readBin env inc).1 w (r.readBin env inc).1) := by
  obtain ⟨st', l, hr⟩ := h.run
  obtain ⟨e1, e2⟩ := h.sp.read hw ⟨_, hr.wf⟩ h.ok hi
  refine ⟨e1, fun hs => ⟨e2 hs, hs, h.wc, ?_, st', _, hr.call (.readBin inc)⟩⟩
  rw [readBin_negotiated hr.wf (h.sp.rx.status.trans h.ok)]
  exact (readFrame env r.minimal inc true).cloned.trans h.rc

/-- Cloning a layer of a divided party. -/
theorem Halves.spare {s w r : SecureLayer} (h : Halves env s w r) :
    Halves env s w.tryClone.1 r ∧ Halves env s w r.tryClone.1 := by
  have h1 : w.minimal.status = .success := h.sp.tx.status.trans h.ok
  have h2 : r.minimal.status = .success := h.sp.rx.status.trans h.ok
  obtain ⟨st', l, hr⟩ := h.run
  refine ⟨⟨?_, h.ok, ?_, h.rc, h.run⟩, ⟨?_, h.ok, h.wc, ?_, st', _, hr.call .clone⟩⟩
  · rw [spare_eq h1]
    exact h.sp.clone.1 rfl rfl rfl rfl
  · rw [spare_eq h1]
  · rw [spare_eq h2]
    exact h.sp.clone.2 ⟨rfl, rfl, rfl, rfl, rfl⟩
  · rw [spare_eq h2]

theorem Halves.renew {s w r c : SecureLayer} (h : Halves env s w r) :
    (w.tryClone.2 = .ok c → Halves env s c r) ∧ (r.tryClone.2 = .ok c → Halves env s w c) := by
  obtain ⟨st', l, hr⟩ := h.run
  constructor
  · intro hc
    obtain ⟨m, hm, rfl⟩ := ctryClone_ok hc
    obtain ⟨hs, he⟩ := tryClone_iff.mp hm
    subst he
    exact ⟨h.sp.clone.1 rfl rfl rfl rfl, h.ok, rfl, h.rc, h.run⟩
  · intro hc
    have hr' := hr.cloned hc
    obtain ⟨m, hm, rfl⟩ := ctryClone_ok hc
    obtain ⟨hs, he⟩ := tryClone_iff.mp hm
    subst he
    exact ⟨h.sp.clone.2 ⟨rfl, rfl, rfl, rfl, rfl⟩, h.ok, h.wc, rfl, st', _, hr'⟩

/-- Dividing a layer. -/
theorem Halves.divide {cst : CStart} {l : List (CEvent Unit)} {s : SecureLayer} (hr : CRun env ⟨true, true, true⟩ cst l s)
    (swap : Bool) :
    Duplex.divide swap s = .one s ∧ s.minimal.status ≠ .success ∨
    ∃ w r, Duplex.divide swap s = .two w r ∧ Halves env s w r := by
  by_cases hs : s.minimal.status = .success
  · right
    have h1 := spare_eq hs
    rcases hc : s.tryClone with ⟨s', c | e | q⟩
    · have hc2 : s.tryClone.2 = .ok c := by rw [hc]
      have hd : Duplex.divide swap s = if swap then .two c s' else .two s' c := by
        unfold Duplex.divide; rw [hc]
      have ha := hr.call .clone
      have hb := hr.cloned hc2
      simp only [cstep] at ha
      rw [hc] at h1 ha
      dsimp only at h1 ha
      obtain ⟨m, hm, rfl⟩ := ctryClone_ok hc2
      obtain ⟨-, he⟩ := tryClone_iff.mp hm
      subst he
      subst h1
      cases swap <;> rw [hd]
      · exact ⟨_, _, rfl,
          ⟨⟨⟨rfl, rfl, rfl, rfl, rfl⟩, ⟨rfl, rfl, rfl⟩, rfl⟩, hs, rfl, rfl, _, _, hb⟩⟩
      · exact ⟨_, _, rfl,
          ⟨⟨⟨rfl, rfl, rfl, rfl, rfl⟩, ⟨rfl, rfl, rfl⟩, rfl⟩, hs, rfl, rfl, _, _, ha⟩⟩
    · unfold SecureLayer.tryClone Layer.tryClone at hc
      rw [if_pos hs] at hc
      simp at hc
    · unfold SecureLayer.tryClone Layer.tryClone at hc
      rw [if_pos hs] at hc
      simp at hc
  · left
    unfold Duplex.divide SecureLayer.tryClone Layer.tryClone
    rw [if_neg hs]
    exact ⟨rfl, hs⟩

/-- Every call of the divided system is a call of the single system, or none. -/
theorem DSim.step (law : env.cr.Lawful) (hon : Honest env st)
    (hK : ∀ p, sessionKey env.cr (st p).random (env.cr.xPublic (st p).random) (env.cr.xPublic (st (!p)).random) = some K)
    (hks : ¬ ∀ i < 4, env.cr.keystream K.key K.nonce i = 0) {n n' : Duplex} {m : Net} (h : DSim env n m)
    (hr : m.Run env st) (hm : m.Fair) (hs : n.Step env n') (hf : n'.Fair) : ∃ m', m'.Run env st ∧ DSim env n' m' := by
  have hi := NetInv.of_run law hon hK hks hr hm
  cases hs with
  | connect p e d w hfit =>
    rcases (n.ends p).cases with ⟨s, hp⟩ | ⟨a, b, hp⟩
    · have he := h.at_one hp e
      rw [he] at hfit ⊢
      refine ⟨_, .step hr (.connect p d w hfit), h.sent rfl (fun a ha => ?_) (fun a b ha => ?_)⟩
      · rw [hp] at ha
        exact Ends.one.inj ha
      · rw [hp] at ha
        cases ha
    · obtain ⟨er, he⟩ := connect_refused (env := env) ((h.two p a b hp).at e).1 d w
      rw [← hp] at he
      refine ⟨m, hr, ?_⟩
      rw [he, Duplex.sent_err]
      exact h
  | ack p e d w hfit =>
    rcases (n.ends p).cases with ⟨s, hp⟩ | ⟨a, b, hp⟩
    · have he := h.at_one hp e
      rw [he] at hfit ⊢
      refine ⟨_, .step hr (.ack p d w hfit), h.sent rfl (fun a ha => ?_) (fun a b ha => ?_)⟩
      · rw [hp] at ha
        exact Ends.one.inj ha
      · rw [hp] at ha
        cases ha
    · obtain ⟨er, he⟩ := ack_refused (env := env) ((h.two p a b hp).at e).1 d w
      rw [← hp] at he
      refine ⟨m, hr, ?_⟩
      rw [he, Duplex.sent_err]
      exact h
  | user p d w hfit hcap hn hrd =>
    have hst : ∀ o, o = (m.layer p).writeBin env d w → Fits w o →
        m.Step env (m.sent p (.user (usersOf (n.wrote p)).length d) w o) := by
      intro o ho hfit
      rw [← h.wrote] at hn ⊢
      subst ho
      exact .user p d w hfit hcap hn ((h.ready p).mpr hrd)
    rcases (n.ends p).cases with ⟨s, hp⟩ | ⟨a, b, hp⟩
    · have he := h.at_one hp true
      rw [he] at hfit ⊢
      refine ⟨_, .step hr (hst _ rfl hfit), h.sent rfl (fun a ha => ?_) (fun a b ha => ?_)⟩
      · rw [hp] at ha
        exact Ends.one.inj ha
      · rw [hp] at ha
        cases ha
    · have hh := h.two p a b hp
      obtain ⟨e1, e2⟩ := hh.write d w
      have hat : (n.ends p).at true = a := by rw [hp]; rfl
      rw [hat] at hfit ⊢
      have hfit' : Fits w ((m.layer p).writeBin env d w) := by
        unfold Fits at hfit ⊢
        rw [← e1]; exact hfit
      have step := hst _ rfl hfit'
      have hsuc := hi.success_step law hon hK hks hr step (by exact hm) hh.ok
      simp only [Net.sent, Function.update_self] at hsuc
      refine ⟨_, .step hr step, h.sent e1.symm (fun x hx => ?_) (fun x y hx => ?_)⟩
      · rw [hp] at hx; cases hx
      · rw [hp] at hx
        cases hx
        exact e2 hsuc
  | config p e c =>
    rcases (n.ends p).cases with ⟨s, hp⟩ | ⟨a, b, hp⟩
    · have he := h.at_one hp e
      rw [he]
      refine ⟨_, .step hr (.config p c), h.update h.wire h.wrote h.log rfl rfl (fun a ha => ?_) (fun a b ha => ?_)⟩
      · rw [hp] at ha
        exact Ends.one.inj ha
      · rw [hp] at ha
        cases ha
    · have he := config_refused ((h.two p a b hp).at e).2 c
      rw [← hp] at he
      refine ⟨m, hr, ?_⟩
      rw [he, Ends.put_at, Function.update_eq_self]
      exact h
  | deliver p x l1 l2 hx =>
    have hxm : m.wire p = l1 ++ x :: l2 := by rw [h.wire]; exact hx
    have step : m.Step env _ := .deliver p x l1 l2 hxm
    have key : ∀ r', r' = (m.layer p).readBin env x.bytes → (((n.ends p).at false).readBin env x.bytes).2 = r'.2 →
        (m.received env p x (l1 ++ l2)).wire = (n.received env p x (l1 ++ l2)).wire ∧
        (m.received env p x (l1 ++ l2)).log = (n.received env p x (l1 ++ l2)).log := by
      intro r' h1 h2
      subst h1
      simp only [Net.received, Duplex.received, h.wire, h.log, h2, and_self]
    rcases (n.ends p).cases with ⟨s, hp⟩ | ⟨a, b, hp⟩
    · have he := h.at_one hp false
      obtain ⟨k1, k2⟩ := key _ rfl (by rw [he])
      refine ⟨_, .step hr step, h.update k1 h.wrote k2 rfl rfl (fun a ha => ?_) (fun a b ha => ?_)⟩
      · rw [he, hp] at ha
        exact Ends.one.inj ha
      · rw [he, hp] at ha
        cases ha
    · have hh := h.two p a b hp
      have hat : (n.ends p).at false = b := by rw [hp]; rfl
      obtain ⟨e1, e2⟩ := hh.read (hi.party p).wf (hi.veiled hks hh.ok (x := x) (by rw [hxm]; simp))
      obtain ⟨k1, k2⟩ := key _ rfl (by rw [hat]; exact e1)
      have hf' : (m.received env p x (l1 ++ l2)).Fair := by
        have : n.received env p x (l1 ++ l2) |>.Fair := hf
        unfold Duplex.Fair Net.Fair Net.arrived at this
        unfold Net.Fair Net.arrived
        rw [k2]
        exact this
      have hsuc := hi.success_step law hon hK hks hr step hf' hh.ok
      simp only [Net.received, Function.update_self] at hsuc
      refine ⟨_, .step hr step, h.update k1 h.wrote k2 rfl rfl (fun x hx => ?_) (fun x y hx => ?_)⟩
      · rw [hp] at hx; cases hx
      · rw [hp] at hx
        cases hx
        exact e2 hsuc
  | divide p swap s hp =>
    have hl := h.one p s hp
    obtain ⟨l, hrun⟩ := (hi.party p).run
    rw [hl] at hrun
    refine ⟨m, hr, ?_⟩
    refine h.update h.wire h.wrote h.log rfl (Function.update_eq_self p m.layer).symm (fun a ha => ?_) (fun a b ha => ?_)
    · rcases Halves.divide hrun swap with ⟨h1, -⟩ | ⟨w, r, h1, -⟩ <;> rw [h1] at ha <;> cases ha
      exact hl
    · rcases Halves.divide hrun swap with ⟨h1, -⟩ | ⟨w, r, h1, hh⟩ <;> rw [h1] at ha <;> cases ha
      rw [hl]
      exact hh
  | spare p e hd =>
    obtain ⟨w, r, hp⟩ := hd
    have hh := h.two p w r hp
    refine ⟨m, hr, ?_⟩
    refine h.update h.wire h.wrote h.log rfl (Function.update_eq_self p m.layer).symm (fun a ha => ?_) (fun a b ha => ?_)
    · rw [hp] at ha
      cases e <;> cases ha
    · rw [hp] at ha
      cases e <;> cases ha
      · exact hh.spare.2
      · exact hh.spare.1
  | renew p e hd c hc =>
    obtain ⟨w, r, hp⟩ := hd
    have hh := h.two p w r hp
    rw [hp] at hc
    refine ⟨m, hr, ?_⟩
    refine h.update h.wire h.wrote h.log rfl (Function.update_eq_self p m.layer).symm (fun a ha => ?_) (fun a b ha => ?_)
    · rw [hp] at ha
      cases e <;> cases ha
    · rw [hp] at ha
      cases e <;> cases ha
      · exact hh.renew.2 hc
      · exact hh.renew.1 hc

/-- Fairness holds at all earlier times. -/
theorem DuplexFair.of_step {n n' : Duplex} (h : n.Step env n') (hf : n'.Fair) : n.Fair := by
  cases h with
  | deliver p x l1 l2 hx =>
    intro q k
    have h1 := hf q k
    by_cases hq : q = p
    · subst hq
      simp only [Duplex.flat, Duplex.received, Net.arrived, Function.update_self, List.map_append, List.map_cons,
        List.map_nil, usersOf_append] at h1
      refine le_trans ?_ h1
      rcases x with ⟨_ | _ | ⟨a, d⟩, b⟩
      · simp [Duplex.flat, Net.arrived]
      · simp [Duplex.flat, Net.arrived]
      · simpa [Duplex.flat, Net.arrived] using overtakers_mono _ a k
    · simpa [Duplex.flat, Duplex.received, Net.arrived, hq] using h1
  | _ => exact hf

/-- Every reachable state of the divided system has a counterpart with single layers. -/
theorem DSim.of_run (law : env.cr.Lawful) (hon : Honest env st)
    (hK : ∀ p, sessionKey env.cr (st p).random (env.cr.xPublic (st p).random) (env.cr.xPublic (st (!p)).random) = some K)
    (hks : ¬ ∀ i < 4, env.cr.keystream K.key K.nonce i = 0) {n : Duplex} (hr : n.Run env st) (hf : n.Fair) :
    ∃ m, m.Run env st ∧ DSim env n m := by
  induction hr with
  | @init n h h1 =>
    refine ⟨n.flat, .init h, rfl, rfl, rfl, fun p s hp => ?_, fun p w r hp => absurd ⟨w, r, hp⟩ (h1 p)⟩
    simp only [Duplex.flat, hp, Ends.at]
  | step hr hs ih =>
    obtain ⟨m, hm, hsim⟩ := ih (DuplexFair.of_step hs hf)
    exact hsim.step law hon hK hks hm (hsim.fair.mpr (DuplexFair.of_step hs hf)) hs hf

end
end Pkstl
