import Verif.Lemmas.DuplexSim
/- C67: applications that read and write at the same time, with one clone for each direction. -/
namespace Pkstl
open Spec

section
variable {env : Env} {st : Bool → CStart} {n : Duplex}

/-- **C67, nothing changes for the applications.** Two honest applications that divide their layers into a writing and a
reading one observe what two applications that each keep a single layer could have observed: the same messages under way,
the same successful calls, the same results of `read_bin`. -/
theorem C67_simulated (law : env.cr.Lawful) (hon : Honest env st) (hr : n.Run env st) (hf : n.Fair) :
    ∃ m : Net, m.Run env st ∧ m.Fair ∧ m.wire = n.wire ∧ m.wrote = n.wrote ∧ m.log = n.log ∧
      ∀ p s, n.ends p = .one s → m.layer p = s := by
  obtain ⟨K, hK, hks⟩ := session_key law hon
  obtain ⟨m, hm, h⟩ := DSim.of_run law hon hK hks hr hf
  exact ⟨m, hm, h.fair.mpr hf, h.wire, h.wrote, h.log, h.one⟩

/-- **C67, no error.** Every call of `read_bin`, on single and on reading layers, succeeds. -/
theorem C67_no_error (law : env.cr.Lawful) (hon : Honest env st) (hr : n.Run env st) (hf : n.Fair) (p : Bool) :
    ∀ e ∈ n.log p, ∃ l, e.2 = .ok l := by
  obtain ⟨m, hm, hf', h1, h2, h3, -⟩ := C67_simulated law hon hr hf
  have := C15_no_error law hon hm hf' p
  rw [h3] at this
  exact this

/-- **C67, when to divide.** `try_clone` of a single layer succeeds iff the party wrote its ACK and was handed the peer's;
a failed attempt changes nothing.  All divided parties are in that position. -/
theorem C67_divide (law : env.cr.Lawful) (hon : Honest env st) (hr : n.Run env st) (hf : n.Fair) (p : Bool) :
    (∀ s, n.ends p = .one s → ((∃ c, s.tryClone.2 = .ok c) ↔ n.ready p) ∧ (¬ n.ready p → s.tryClone.1 = s)) ∧
    (n.divided p → n.ready p) := by
  obtain ⟨K, hK, hks⟩ := session_key law hon
  obtain ⟨m, hm, h⟩ := DSim.of_run law hon hK hks hr hf
  have hs := (C15_status law hon hm (h.fair.mpr hf)).1 p
  rw [h.ready p] at hs
  refine ⟨fun s hp => ?_, fun ⟨w, r, hp⟩ => hs.mp (h.two p w r hp).ok⟩
  rw [h.one p s hp] at hs
  rw [← hs]
  constructor
  · constructor
    · rintro ⟨c, hc⟩
      obtain ⟨c', hc', -⟩ := ctryClone_ok hc
      exact (tryClone_iff.mp hc').1
    · intro hsuc
      rcases hc : s.tryClone with ⟨a, c | e | q⟩
      · exact ⟨c, rfl⟩
      all_goals
        unfold SecureLayer.tryClone Layer.tryClone at hc
        rw [if_pos hsuc] at hc
        simp at hc
  · intro hns
    unfold SecureLayer.tryClone Layer.tryClone
    rw [if_neg hns]

/-- **C67, writing.** The writing layer of a party that wrote its ACK and was handed the peer's writes user messages
(whatever the reading layer does at the same time). -/
theorem C67_writes (law : env.cr.Lawful) (hon : Honest env st) (hr : n.Run env st) (hf : n.Fair) {p : Bool} {w : BufW}
    (hw : w.sink.script = []) (hp : n.ready p) (hcap : 16 < w.cap)
    (hn : (usersOf (n.wrote p)).length + 1 < 2 ^ 64) (d : Bytes) :
    (((n.ends p).at true).writeBin env d w).2.2 = .ok () := by
  obtain ⟨K, hK, hks⟩ := session_key law hon
  obtain ⟨m, hm, h⟩ := DSim.of_run law hon hK hks hr hf
  have := (C15_progress law hon hm (h.fair.mpr hf) p hw).2.2 ((h.ready p).mpr hp) hcap (by rw [h.wrote]; exact hn) d
  rcases (n.ends p).cases with ⟨s, hs⟩ | ⟨a, b, hs⟩
  · rw [h.at_one hs]
    exact this
  · rw [hs]
    simp only [Ends.at]
    rw [((h.two p a b hs).write d w).1]
    exact this

/-- **C67, nothing else.** On both layers of a divided party CONNECT, ACK and `change_config` are refused: no state
changes and nothing is written. -/
theorem C67_refused (law : env.cr.Lawful) (hon : Honest env st) (hr : n.Run env st) (hf : n.Fair) {p : Bool}
    (hd : n.divided p) (e : Bool) :
    (∀ d w, ∃ er, ((n.ends p).at e).writeConnectBin env d w = ((n.ends p).at e, w, .err er)) ∧
    (∀ d w, ∃ er, ((n.ends p).at e).writeAckBin env d w = ((n.ends p).at e, w, .err er)) ∧
    (∀ c, ((n.ends p).at e).changeConfig c = ((n.ends p).at e, .err .forbidChangeConfAfterClone)) := by
  obtain ⟨K, hK, hks⟩ := session_key law hon
  obtain ⟨m, hm, h⟩ := DSim.of_run law hon hK hks hr hf
  obtain ⟨a, b, hs⟩ := hd
  have h1 := (h.two p a b hs).at e
  rw [hs]
  exact ⟨fun d w => connect_refused h1.1 d w, fun d w => ack_refused h1.1 d w, fun c => config_refused h1.2 c⟩

/-- **C67, delivery.** Every user message handed over was written by the peer, none more often than it was written; after
the ACK they are handed over in the order of their arrival; once nothing is under way to `p`, all of them have been handed
over exactly once. -/
theorem C67_delivery (law : env.cr.Lawful) (hon : Honest env st) (hr : n.Run env st) (hf : n.Fair) (p : Bool) :
    (usersIn (n.delivered p)).Subperm ((usersOf (n.wrote (!p))).map fun x => some x.2) ∧
    (usersIn (n.delivered p) =
      if acksIn (n.delivered p) = [] then [] else (usersOf (n.arrived p)).map fun x => some x.2) ∧
    (n.wire p = [] → (usersIn (n.delivered p)).Perm ((usersOf (n.wrote (!p))).map fun x => some x.2)) := by
  obtain ⟨m, hm, hf', h1, h2, h3, -⟩ := C67_simulated law hon hr hf
  have ha : m.arrived = n.arrived := by
    funext q
    simp only [Net.arrived, Duplex.arrived, Duplex.flat, h3]
  have hd : m.delivered = n.delivered := by
    funext q
    simp only [Net.delivered, Duplex.delivered, Duplex.flat, h3]
  have k1 := C21_at_most_once law hon hm hf' p
  have k2 := C21_arrival_order law hon hm hf' p
  have k3 := C21_exactly_once law hon hm hf' (p := p)
  rw [ha, hd] at k2
  rw [hd, h2] at k1
  rw [hd, h1, h2] at k3
  exact ⟨k1, k2, k3⟩

/-- **C67, the window.** A delivery that would make the 10001st later message arrive before an earlier one fails the
reading layer; the writing layer of a divided party still works. -/
theorem C67_window (law : env.cr.Lawful) (hon : Honest env st) (hr : n.Run env st) (hf : n.Fair) {p : Bool}
    {x : Flight} {l1 l2 : List Flight} (hx : n.wire p = l1 ++ x :: l2) (hd : n.divided p)
    (hu : ¬ (n.received env p x (l1 ++ l2)).Fair) :
    (((n.ends p).at false).readBin env x.bytes).2 = .err .tooManyUnorderedMsgs ∧
    (((n.received env p x (l1 ++ l2)).ends p).at false).minimal.status = .fail ∧
    ∀ {w : BufW}, w.sink.script = [] → 16 < w.cap → (usersOf (n.wrote p)).length + 1 < 2 ^ 64 →
      ∀ d, ((((n.received env p x (l1 ++ l2)).ends p).at true).writeBin env d w).2.2 = .ok () := by
  obtain ⟨K, hK, hks⟩ := session_key law hon
  obtain ⟨m, hm, h⟩ := DSim.of_run law hon hK hks hr hf
  have hfm := h.fair.mpr hf
  have hi := NetInv.of_run law hon hK hks hm hfm
  have hready := (C67_divide law hon hr hf p).2 hd
  have hwr := @C67_writes env st n law hon hr hf p
  obtain ⟨a, b, hs⟩ := hd
  have hh := h.two p a b hs
  have hxm : m.wire p = l1 ++ x :: l2 := by rw [h.wire]; exact hx
  have hv := hi.veiled hks hh.ok (x := x) (by rw [hxm]; simp)
  have hat : (n.ends p).at false = b := by rw [hs]; rfl
  have hum : ¬ (m.received env p x (l1 ++ l2)).Fair := by
    intro hc
    apply hu
    intro q k
    have := hc q k
    unfold Net.arrived at this ⊢
    by_cases hq : q = p
    · subst hq
      simpa [Net.received, Duplex.flat, Duplex.received, h.log] using this
    · simpa [Net.received, Duplex.flat, Duplex.received, hq, h.log] using this
  have key := C21_window_exact law hon hm hfm hxm ((h.ready p).mpr hready) hum
  have hrd := (hh.read (hi.party p).wf hv).1
  obtain ⟨st', l, hrun⟩ := hh.run
  refine ⟨by rw [hat, hrd, key], ?_, fun hw hcap hn d => ?_⟩
  · have h1 := readBin_negotiated hrun.wf (hh.sp.rx.status.trans hh.ok) x.bytes
    have h2 := readBin_negotiated (hi.party p).wf hh.ok x.bytes
    have h3 := (read_same (env := env) hh.sp.rx hv).2.status
    simp only [Duplex.received, Function.update_self, hs, Ends.at, Ends.put]
    rw [h1]
    dsimp only
    rw [h3]
    rw [key] at h2
    have h4 := congrArg (fun z : SecureLayer => z.minimal.status) h2
    exact h4.symm
  · have := hwr hw hready hcap hn d
    simp only [Duplex.received, Function.update_self]
    rw [hs] at this ⊢
    exact this

/-- A system of single layers. -/
def single (m : Net) : Duplex := ⟨fun p => .one (m.layer p), m.wire, m.wrote, m.log⟩

/-- Nobody has to divide. -/
theorem single_run {m : Net} (hr : m.Run env st) : (single m).Run env st := by
  have upd : ∀ (m : Net) p s, (fun q => Ends.one (Function.update m.layer p s q)) =
      Function.update (single m).ends p (.one s) := by
    intro m p s
    funext q
    by_cases hq : q = p
    · subst hq; simp
    · simp [hq, single]
  induction hr with
  | init h => exact .init ⟨h.layer, h.wire, h.wrote, h.log⟩ (by rintro p ⟨w, r, h⟩; cases h)
  | @step m m' hr h ih =>
    cases h with
    | connect p d w hf =>
      have := Duplex.Run.step ih (.connect p true d w hf)
      simp only [single, Duplex.sent, Net.sent, upd, Ends.put, Ends.at] at this ⊢
      exact this
    | ack p d w hf =>
      have := Duplex.Run.step ih (.ack p true d w hf)
      simp only [single, Duplex.sent, Net.sent, upd, Ends.put, Ends.at] at this ⊢
      exact this
    | user p d w hf hcap hn hrd =>
      have := Duplex.Run.step ih (.user p d w hf hcap hn hrd)
      simp only [single, Duplex.sent, Net.sent, upd, Ends.put, Ends.at] at this ⊢
      exact this
    | config p c =>
      have := Duplex.Run.step ih (.config p true c)
      simpa only [single, upd, Ends.put, Ends.at] using this
    | deliver p x l1 l2 hx =>
      have := Duplex.Run.step ih (.deliver p x l1 l2 hx)
      simpa only [single, Duplex.received, Net.received, upd, Ends.put, Ends.at] using this

end

namespace Toy

/-- The steps of a run, as a program. -/
inductive DAct where
  | connect (p e : Bool)
  | user (p : Bool) (d : Bytes)
  | deliver (p : Bool) (i : Nat)
  | divide (p swap : Bool)

def dact (env : Env) (n : Duplex) : DAct → Duplex
  | .connect p e => n.sent p e (.connect none) sink (((n.ends p).at e).writeConnectBin env none sink)
  | .user p d => n.sent p true (.user (usersOf (n.wrote p)).length d) sink (((n.ends p).at true).writeBin env d sink)
  | .deliver p i =>
    match (n.wire p)[i]? with
    | some x => n.received env p x ((n.wire p).take i ++ (n.wire p).drop (i + 1))
    | none => n
  | .divide p swap =>
    match n.ends p with
    | .one s => { n with ends := Function.update n.ends p (Duplex.divide swap s) }
    | .two _ _ => n

instance (n : Duplex) (p : Bool) : Decidable (n.ready p) := by unfold Duplex.ready; infer_instance

def isOne : Ends → Bool
  | .one _ => true
  | .two _ _ => false

def denabled (env : Env) (n : Duplex) : DAct → Bool
  | .connect p e => Fits sink (((n.ends p).at e).writeConnectBin env none sink)
  | .user p d => Fits sink (((n.ends p).at true).writeBin env d sink) ∧ (usersOf (n.wrote p)).length + 1 < 2 ^ 64 ∧ n.ready p
  | .deliver p i => i < (n.wire p).length
  | .divide p _ => isOne (n.ends p)

theorem dact_step {env : Env} {n : Duplex} {a : DAct} (h : denabled env n a = true) : n.Step env (dact env n a) := by
  cases a with
  | connect p e => exact .connect p e none sink (by simpa [denabled] using h)
  | user p d =>
    simp only [denabled, decide_eq_true_eq] at h
    exact .user p d sink h.1 (by decide) h.2.1 h.2.2
  | deliver p i =>
    simp only [denabled, decide_eq_true_eq] at h
    simp only [dact, List.getElem?_eq_getElem h]
    exact .deliver p _ _ _ (by simp)
  | divide p swap =>
    simp only [denabled] at h
    cases hs : n.ends p with
    | one s =>
      simp only [dact, hs]
      exact .divide p swap s hs
    | two a b => rw [hs] at h; cases h

def dacts (env : Env) : Duplex → List DAct → Duplex
  | n, [] => n
  | n, a :: l => dacts env (dact env n a) l

def denabledAll (env : Env) : Duplex → List DAct → Bool
  | _, [] => true
  | n, a :: l => denabled env n a && denabledAll env (dact env n a) l

theorem dacts_run {env : Env} {st : Bool → CStart} {n : Duplex} {l : List DAct} (hr : n.Run env st)
    (h : denabledAll env n l = true) : (dacts env n l).Run env st := by
  induction l generalizing n with
  | nil => exact hr
  | cons a l ih =>
    simp only [denabledAll, Bool.and_eq_true] at h
    exact ih (.step hr (dact_step h.1)) h.2

/-- After the handshake both divide, A with the clone writing; each writes before it has read what is under way, A twice;
A's messages arrive in the wrong order.  A tries to write another CONNECT on its reading layer. -/
def talk : List DAct :=
  [.divide true true, .divide false false, .user true [5], .user false [9], .user true [6], .deliver false 1,
   .connect true false, .deliver true 0, .deliver false 0]

example (oc : Bool) :
    (dacts (env oc) (single (acts (env oc) net0 shake)) talk).Run (env oc) nst ∧
    (dacts (env oc) (single (acts (env oc) net0 shake)) talk).Fair ∧
    (∀ p, isOne ((dacts (env oc) (single (acts (env oc) net0 shake)) talk).ends p) = false) ∧
    (∀ p, ((dacts (env oc) (single (acts (env oc) net0 shake)) talk).wire p).isEmpty = true) ∧
    usersIn ((dacts (env oc) (single (acts (env oc) net0 shake)) talk).delivered false) = [some [6], some [5]] ∧
    usersIn ((dacts (env oc) (single (acts (env oc) net0 shake)) talk).delivered true) = [some [9]] := by
  have hr : (acts (env oc) net0 shake).Run (env oc) nst := acts_run (.init (init0 oc)) (by cases oc <;> decide +kernel)
  refine ⟨dacts_run (single_run hr) ?_, fair_short ?_, ?_, ?_, ?_, ?_⟩
  all_goals cases oc <;> decide +kernel

/-- The hypotheses of `C67_window` can be met: `n` with the receiving party divided. -/
theorem unfair_divided (oc : Bool) : ∃ (n : Duplex) (x : Flight) (l1 l2 : List Flight), n.Run (env oc) nst ∧ n.Fair ∧ n.divided false ∧
    ((n.ends false).at false).minimal.status = .success ∧ n.wire false = l1 ++ x :: l2 ∧ ¬ (n.received (env oc) false x (l1 ++ l2)).Fair ∧
    (usersOf (n.wrote false)).length + 1 < 2 ^ 64 := by
  obtain ⟨m, x, l1, l2, h1, h2, h3, h4, h5, h6⟩ := unfair_exists oc
  obtain ⟨K, hK, hks⟩ := session_key lawful (honest oc)
  obtain ⟨l, hrun⟩ := ((NetInv.of_run lawful (honest oc) hK hks h1 h2).party false).run
  refine ⟨_, x, l1, l2, .step (single_run h1) (.divide false false (m.layer false) rfl), h2, ?_, ?_, h4, fun hc => h5 ?_, by rw [show usersOf (Duplex.wrote _ false) = _ from h6]; decide⟩
  · rcases Halves.divide hrun false with ⟨-, hd⟩ | ⟨w, r, hd, -⟩
    · exact absurd (((C15_status lawful (honest oc) h1 h2).1 false).mpr h3) hd
    · exact ⟨w, r, by simp only [Function.update_self]; exact hd⟩
  · rcases Halves.divide hrun false with ⟨-, hd⟩ | ⟨w, r, hd, hh⟩
    · exact absurd (((C15_status lawful (honest oc) h1 h2).1 false).mpr h3) hd
    · simp only [Function.update_self]
      rw [hd]
      exact (hh.at false).1
  · intro q k
    have := hc q k
    cases q <;> simpa [single, Duplex.flat, Duplex.received, Net.received, Net.arrived] using this

end Toy
end Pkstl
