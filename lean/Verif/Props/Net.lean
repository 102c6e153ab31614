import Verif.Lemmas.NetLive
import Verif.Spec.ToyComplete
/- C15, C21: two honest parties over a network that delays and reorders. -/
namespace Pkstl
open Spec

section
variable {env : Env} {st : Bool → CStart} {n : Net}

/-! ## C15: the handshake -/

/-- **C15, no error.** Whatever the schedule, no call of `read_bin` returns an error or panics. -/
theorem C15_no_error (law : env.cr.Lawful) (hon : Honest env st) (hr : n.Run env st) (hf : n.Fair) (p : Bool) :
    ∀ e ∈ n.log p, ∃ l, e.2 = .ok l := by
  obtain ⟨K, hK, hks⟩ := session_key law hon
  exact (NetInv.of_run law hon hK hks hr hf).ok p

/-- **C15, progress.** `write_connect_msg_bin` succeeds iff it has not succeeded before, `write_ack_msg_bin` succeeds iff a
CONNECT was handed to the application and it has not succeeded before, and a party that wrote its ACK and was handed the
peer's can write user messages. -/
theorem C15_progress (law : env.cr.Lawful) (hon : Honest env st) (hr : n.Run env st) (hf : n.Fair) (p : Bool) {w : BufW}
    (hw : w.sink.script = []) :
    (∀ d, ((n.layer p).writeConnectBin env d w).2.2 = .ok () ↔ connectsOf (n.wrote p) = []) ∧
    (∀ d, ((n.layer p).writeAckBin env d w).2.2 = .ok () ↔ connectsIn (n.delivered p) ≠ [] ∧ acksOf (n.wrote p) = []) ∧
    (n.ready p → 16 < w.cap → (usersOf (n.wrote p)).length + 1 < 2 ^ 64 →
      ∀ d, ((n.layer p).writeBin env d w).2.2 = .ok ()) := by
  obtain ⟨K, hK, hks⟩ := session_key law hon
  have hp := (NetInv.of_run law hon hK hks hr hf).party p
  refine ⟨fun d => ?_, fun d => ?_, fun h1 h2 h3 d => ?_⟩
  · rcases hp.connect law d hw with ⟨h1, e, h2⟩ | ⟨h1, s', w', b, h2, -⟩ <;> rw [h2] <;> simp [h1]
  · rw [hp.dl_connect]
    rcases hp.ack law d hw with ⟨h1, e, h2⟩ | ⟨h1, h3, s', w', b, h2, -⟩ <;> rw [h2] <;> simp
    · tauto
    · exact ⟨h1, h3⟩
  · have har : ackRead (st p).expected (connectsOf (n.arrived p)) (acksOf (n.arrived p)) = true := by
      have := h1.2
      rw [hp.dl_ack] at this
      by_contra hc
      simp [hc] at this
    obtain ⟨s', w', b, h4, -⟩ := hp.user law d hw h2 h3 h1.1 har
    rw [h4]

/-- **C15, status.** A party is negotiated iff it wrote its ACK and was handed the peer's; parties that were handed a
CONNECT hold the peer's signature key and the same session secret. -/
theorem C15_status (law : env.cr.Lawful) (hon : Honest env st) (hr : n.Run env st) (hf : n.Fair) :
    (∀ p, (n.layer p).minimal.status = .success ↔ n.ready p) ∧
    (∀ p, n.ready p → connectsIn (n.delivered p) ≠ []) ∧
    ∃ k, ∀ p, connectsIn (n.delivered p) ≠ [] → (n.layer p).minimal.secret = some k ∧
      (n.layer p).minimal.peerSigPubkey = some (sigKey env st (!p)) := by
  obtain ⟨K, hK, hks⟩ := session_key law hon
  have hi := NetInv.of_run law hon hK hks hr hf
  refine ⟨fun p => ?_, fun p h => ?_, K, fun p h => ?_⟩
  · have hp := hi.party p
    unfold Net.ready
    rw [hp.status, hp.dl_ack]
    unfold stat
    cases har : ackRead (st p).expected (connectsOf (n.arrived p)) (acksOf (n.arrived p)) with
    | false => simp
    | true =>
      have : acksOf (n.arrived p) ≠ [] := by
        intro hc
        rw [hc] at har
        simp [ackRead] at har
      by_cases ha : acksOf (n.wrote p) = []
      · simp [ha]
      · have he : (!(acksOf (n.wrote p)).isEmpty) = true := by simpa using ha
        simp [he, ha, this]
  · have hp := hi.party p
    rw [hp.dl_connect]
    simpa using hp.aw_ca h.1
  · have hp := hi.party p
    rw [hp.dl_connect] at h
    have h' : connectsOf (n.arrived p) ≠ [] := by simpa using h
    rw [hp.secret, hp.psk, if_neg h', if_neg h']
    exact ⟨rfl, rfl⟩

/-- **C15, delivery.** What is handed to the application is what the peer wrote, at most once, with the peer's signature
key; once nothing is under way to `p`, it is everything. -/
theorem C15_delivered (law : env.cr.Lawful) (hon : Honest env st) (hr : n.Run env st) (hf : n.Fair) (p : Bool) :
    (connectsIn (n.delivered p)).Sublist ((connectsOf (n.wrote (!p))).map fun d => (d, sigKey env st (!p))) ∧
    (acksIn (n.delivered p)).Sublist (acksOf (n.wrote (!p))) ∧
    (n.wire p = [] →
      connectsIn (n.delivered p) = (connectsOf (n.wrote (!p))).map (fun d => (d, sigKey env st (!p))) ∧
      (connectsOf (n.wrote (!p)) ≠ [] → acksIn (n.delivered p) = acksOf (n.wrote (!p)))) := by
  obtain ⟨K, hK, hks⟩ := session_key law hon
  have hi := NetInv.of_run law hon hK hks hr hf
  have hp := hi.party p
  have short : ∀ {α : Type} {a b c : List α}, (a ++ b).Perm c → c.length ≤ 1 → b.Sublist c := by
    intro α a b c h hc
    match b, h with
    | [], _ => exact List.nil_sublist _
    | x :: b, h =>
      have hl := h.length_eq
      simp only [List.length_append, List.length_cons] at hl
      have ha : a = [] := List.length_eq_zero_iff.mp (by omega)
      have hb : b = [] := List.length_eq_zero_iff.mp (by omega)
      subst ha hb
      rw [List.nil_append] at h
      rw [List.singleton_perm.mp h]
  have whole : ∀ {α : Type} {b c : List α}, b.Perm c → c.length ≤ 1 → b = c := by
    intro α b c h hc
    exact (short (a := []) h hc).eq_of_length h.length_eq
  have hc := hi.connects p
  have ha := hi.acks p
  have h1 := (hi.party (!p)).one_cw
  have h2 := (hi.party (!p)).one_aw
  refine ⟨?_, ?_, fun hw => ⟨?_, fun hne => ?_⟩⟩
  · rw [hp.dl_connect]
    exact (short hc h1).map _
  · rw [hp.dl_ack]
    split
    · exact short ha h2
    · exact List.nil_sublist _
  · rw [hw] at hc
    have e1 := whole hc h1
    simp only [List.map_nil, connectsOf_nil, List.nil_append] at e1
    rw [hp.dl_connect, e1]
  · rw [hw] at hc ha
    have e1 := whole hc h1
    have e2 := whole ha h2
    simp only [List.map_nil, connectsOf_nil, acksOf_nil, List.nil_append] at e1 e2
    rw [hp.dl_ack, e1, e2]
    split
    · rfl
    · rename_i hn
      have he : (connectsOf (n.wrote (!p))).isEmpty = false := by simpa using hne
      simp only [ackRead, he, Bool.not_false, Bool.true_or, Bool.and_true] at hn
      simpa using hn

/-- **C15.** Whatever the schedule and whichever side expects the other's key: once both have written CONNECT and ACK and
everything has arrived, both are negotiated with the same session secret and hold each other's signature key. -/
theorem C15_negotiated (law : env.cr.Lawful) (hon : Honest env st) (hr : n.Run env st) (hf : n.Fair)
    (hempty : ∀ p, n.wire p = []) (hc : ∀ p, connectsOf (n.wrote p) ≠ []) (ha : ∀ p, acksOf (n.wrote p) ≠ []) :
    ∃ k, ∀ p, (n.layer p).minimal.status = .success ∧ (n.layer p).minimal.secret = some k ∧
      (n.layer p).minimal.peerSigPubkey = some (sigKey env st (!p)) := by
  obtain ⟨h1, h2, k, h3⟩ := C15_status law hon hr hf
  have hready : ∀ p, n.ready p := by
    intro p
    have := ((C15_delivered law hon hr hf p).2.2 (hempty p)).2 (hc _)
    exact ⟨ha p, by rw [this]; exact ha _⟩
  exact ⟨k, fun p => ⟨(h1 p).mpr (hready p), h3 p (h2 p (hready p))⟩⟩

/-- **C15, no dead end.** From every reachable state the two parties can complete the negotiation. -/
theorem C15_completable (law : env.cr.Lawful) (hon : Honest env st) (hr : n.Run env st) (hf : n.Fair) :
    ∃ n', n.Steps env n' ∧ n'.Fair ∧ ∀ p, n'.ready p ∧ (n'.layer p).minimal.status = .success := by
  obtain ⟨n8, s8, f8, hready⟩ := exists_ready law hon hr hf
  replace s8 := s8.steps
  exact ⟨n8, s8, f8, fun p => ⟨hready p, ((C15_status law hon (s8.run hr) f8).1 p).mpr (hready p)⟩⟩

/-! ## C21: user messages -/

/-- **C21, at most once.** Every user message handed to the application was written by the peer, and none is handed over
more often than it was written. -/
theorem C21_at_most_once (law : env.cr.Lawful) (hon : Honest env st) (hr : n.Run env st) (hf : n.Fair) (p : Bool) :
    (usersIn (n.delivered p)).Subperm ((usersOf (n.wrote (!p))).map fun x => some x.2) := by
  obtain ⟨K, hK, hks⟩ := session_key law hon
  have hi := NetInv.of_run law hon hK hks hr hf
  rw [(hi.party p).dl_user]
  split
  · exact ((List.sublist_append_right _ _).map _).subperm.trans ((hi.users p).map _).subperm
  · exact List.nil_subperm

/-- **C21, arrival order.** After the ACK the user messages handed to the application are exactly those that have arrived,
before and after the ACK, in the order of their arrival; before the ACK there are none. -/
theorem C21_arrival_order (law : env.cr.Lawful) (hon : Honest env st) (hr : n.Run env st) (hf : n.Fair) (p : Bool) :
    usersIn (n.delivered p) =
      if acksIn (n.delivered p) = [] then [] else (usersOf (n.arrived p)).map fun x => some x.2 := by
  obtain ⟨K, hK, hks⟩ := session_key law hon
  have hi := NetInv.of_run law hon hK hks hr hf
  have hp := hi.party p
  rw [hp.dl_user, hp.dl_ack]
  cases har : ackRead (st p).expected (connectsOf (n.arrived p)) (acksOf (n.arrived p)) with
  | false => simp
  | true =>
    have : acksOf (n.arrived p) ≠ [] := by
      intro hc
      rw [hc] at har
      simp [ackRead] at har
    simp [this]

/-- **C21, exactly once.** Once nothing is under way to `p`, the user messages handed to the application are exactly those
that the peer wrote, each as often as it was written, with their exact content. -/
theorem C21_exactly_once (law : env.cr.Lawful) (hon : Honest env st) (hr : n.Run env st) (hf : n.Fair) {p : Bool}
    (hw : n.wire p = []) :
    (usersIn (n.delivered p)).Perm ((usersOf (n.wrote (!p))).map fun x => some x.2) := by
  obtain ⟨K, hK, hks⟩ := session_key law hon
  have hi := NetInv.of_run law hon hK hks hr hf
  have hp := hi.party p
  have hu := hi.users p
  rw [hw] at hu
  simp only [List.map_nil, usersOf_nil, List.nil_append] at hu
  rw [hp.dl_user]
  split
  · exact hu.map _
  · rename_i har
    by_cases hne : usersOf (n.wrote (!p)) = []
    · simp [hne]
    · exfalso
      obtain ⟨h1, h2⟩ := hi.user_cause hne
      have h3 := hp.aw_ca h1
      have h4 := hi.acks p
      rw [hw] at h4
      have h5 : acksOf (n.arrived p) ≠ [] := by
        intro hc
        rw [hc] at h4
        simp only [List.map_nil, acksOf_nil, List.nil_append] at h4
        exact h2 (List.nil_perm.mp h4)
      apply har
      have e1 : (connectsOf (n.arrived p)).isEmpty = false := by simpa using h3
      have e2 : (acksOf (n.arrived p)).isEmpty = false := by simpa using h5
      simp [ackRead, e1, e2]

/-- **C21, the limit is exact.** A message whose arrival at a negotiated party makes the schedule unfair is refused and
fails the layer. -/
theorem C21_window_exact (law : env.cr.Lawful) (hon : Honest env st) (hr : n.Run env st) (hf : n.Fair) {p : Bool}
    {x : Flight} {l1 l2 : List Flight} (hx : n.wire p = l1 ++ x :: l2) (hp : n.ready p)
    (hu : ¬ (n.received env p x (l1 ++ l2)).Fair) :
    (n.layer p).readBin env x.bytes =
      ({ n.layer p with minimal := { (n.layer p).minimal with status := .fail } }, .err .tooManyUnorderedMsgs) := by
  obtain ⟨K, hK, hks⟩ := session_key law hon
  have hi := NetInv.of_run law hon hK hks hr hf
  have hs := ((C15_status law hon hr hf).1 p).mpr hp
  have hparty := hi.party p
  have hg := hi.good p x (by rw [hx]; simp)
  have hnd := hi.nodup p
  have hcnt := hi.count p
  have har : ackRead (st p).expected (connectsOf (n.arrived p)) (acksOf (n.arrived p)) = true := by
    have := hp.2
    rw [hparty.dl_ack] at this
    by_contra hc
    simp [hc] at this
  have hD := hparty.knows har
  have hsec := hparty.secret
  rw [if_neg (hparty.aw_ca hp.1)] at hsec
  obtain ⟨what, bytes⟩ := x
  rw [hx] at hnd hcnt
  cases what with
  | connect d =>
    exact absurd (fun q m => by
      by_cases hq : q = p
      · subst hq
        have := hf q m
        simpa [Net.received, Net.arrived, usersOf_append] using this
      · have := hf q m
        simpa [Net.received, Net.arrived, hq] using this) hu
  | ack d =>
    exact absurd (fun q m => by
      by_cases hq : q = p
      · subst hq
        have := hf q m
        simpa [Net.received, Net.arrived, usersOf_append] using this
      · have := hf q m
        simpa [Net.received, Net.arrived, hq] using this) hu
  | user m d =>
    have hlen : (usersOf (n.arrived p)).length + 1 < 2 ^ 64 := by
      simp only [List.map_append, List.map_cons, usersOf_append, usersOf_user, List.length_append,
        List.length_cons] at hcnt
      omega
    have hnd' : ((usersOf (n.arrived p)).map Prod.fst ++ [m]).Nodup := by
      simp only [List.map_append, List.map_cons, usersOf_append, usersOf_user] at hnd
      rw [List.nodup_append] at hnd ⊢
      refine ⟨hnd.2.1, by simp, ?_⟩
      intro a ha b hb
      rw [List.mem_singleton.mp hb]
      exact (hnd.2.2 m (by simp) a ha).symm
    have hfl := (flow_iff [] ((usersOf (n.arrived p)).map Prod.fst) (by simpa using (List.nodup_append.mp hnd').1)
      (by simp)).mpr fun k _ => by simpa using hf p k
    have hdel : ¬ Deliverable ((usersOf (n.arrived p)).map Prod.fst) m := by
      intro hc
      apply hu
      have := (flow_iff [] ((usersOf (n.arrived p)).map Prod.fst ++ [m]) (by simpa using hnd') (by simp)).mp
        (Flow_append.mpr ⟨hfl, hc, trivial⟩)
      intro q k
      by_cases hq : q = p
      · subst hq
        simpa [Net.received, Net.arrived, usersOf_append] using this k (by simp)
      · have := hf q k
        simpa [Net.received, Net.arrived, hq] using this
    have hmem : m ∉ (usersOf (n.arrived p)).map Prod.fst := by
      intro hc
      exact (List.nodup_append.mp hnd').2.2 m hc m (by simp) rfl
    obtain ⟨z, hz, rfl, hn, hl⟩ := hg
    have := (read_user_window law hn hl hks hsec hs hparty.wf.win hD (by simpa [u64Size] using hlen)).2.2 hmem hdel
    unfold SecureLayer.readBin
    rw [this]

end

/-! ## a concrete run -/

namespace Toy

/-- Two toy parties; A expects B's key. -/
def nst : Bool → CStart
  | true => ⟨Config.default, some pkB, [1], some seedA, []⟩
  | false => cstB

theorem honest (oc : Bool) : Honest (env oc) nst where
  expected := by
    intro p
    cases p
    · exact .inl rfl
    · exact .inr rfl
  agree := by cases oc <;> decide +kernel
  keystream := by
    intro k hk
    have : some key = some k := key_ok.symm.trans hk
    cases this
    exact key_stream

/-- The steps of a run, as a program. -/
inductive Act where
  | connect (p : Bool) (d : Option Bytes)
  | ack (p : Bool) (d : Option Bytes)
  | user (p : Bool) (d : Bytes)
  | deliver (p : Bool) (i : Nat)

def act (env : Env) (n : Net) : Act → Net
  | .connect p d => n.sent p (.connect d) sink ((n.layer p).writeConnectBin env d sink)
  | .ack p d => n.sent p (.ack d) sink ((n.layer p).writeAckBin env d sink)
  | .user p d => n.sent p (.user (usersOf (n.wrote p)).length d) sink ((n.layer p).writeBin env d sink)
  | .deliver p i =>
    match (n.wire p)[i]? with
    | some x => n.received env p x ((n.wire p).take i ++ (n.wire p).drop (i + 1))
    | none => n

instance (n : Net) (p : Bool) : Decidable (n.ready p) := by unfold Net.ready; infer_instance
instance (w : BufW) (o : SecureLayer × BufW × Res Unit) : Decidable (Fits w o) := by unfold Fits; infer_instance

def enabled (env : Env) (n : Net) : Act → Bool
  | .connect p d => Fits sink ((n.layer p).writeConnectBin env d sink)
  | .ack p d => Fits sink ((n.layer p).writeAckBin env d sink)
  | .user p d => Fits sink ((n.layer p).writeBin env d sink) ∧ (usersOf (n.wrote p)).length + 1 < 2 ^ 64 ∧ n.ready p
  | .deliver p i => i < (n.wire p).length

theorem act_step {env : Env} {n : Net} {a : Act} (h : enabled env n a = true) : n.Step env (act env n a) := by
  cases a with
  | connect p d => exact .connect p d sink (by simpa [enabled] using h)
  | ack p d => exact .ack p d sink (by simpa [enabled] using h)
  | user p d =>
    simp only [enabled, decide_eq_true_eq] at h
    exact .user p d sink h.1 (by decide) h.2.1 h.2.2
  | deliver p i =>
    simp only [enabled, decide_eq_true_eq] at h
    simp only [act, List.getElem?_eq_getElem h]
    exact .deliver p _ _ _ (by simp)

def acts (env : Env) : Net → List Act → Net
  | n, [] => n
  | n, a :: l => acts env (act env n a) l

def enabledAll (env : Env) : Net → List Act → Bool
  | _, [] => true
  | n, a :: l => enabled env n a && enabledAll env (act env n a) l

theorem acts_run {env : Env} {st : Bool → CStart} {n : Net} {l : List Act} (hr : n.Run env st)
    (h : enabledAll env n l = true) : (acts env n l).Run env st := by
  induction l generalizing n with
  | nil => exact hr
  | cons a l ih =>
    simp only [enabledAll, Bool.and_eq_true] at h
    exact ih (.step hr (act_step h.1)) h.2

def net0 : Net where
  layer p := if p then csA (layer0 [1] (some pkB)) else csB (layer0 [2] none)
  wire _ := []
  wrote _ := []
  log _ := []

theorem init0 (oc : Bool) : net0.Init (env oc) nst where
  layer p := by cases p <;> rfl
  wire _ := rfl
  wrote _ := rfl
  log _ := rfl

/-- B's ACK overtakes its CONNECT; both user messages of A overtake its ACK, and each other. -/
def sched : List Act :=
  [.connect true (some [7]), .connect false none, .deliver false 0, .ack false none, .deliver true 1, .deliver true 0,
   .ack true (some []), .user true [5], .user true [], .deliver false 2, .deliver false 1]

theorem fair_short {n : Net} (h : ∀ p, (n.log p).length ≤ 10000) : n.Fair := by
  intro p m
  unfold overtakers
  refine (List.length_filter_le _ _).trans ((List.takeWhile_sublist _).length_le.trans ?_)
  rw [List.length_map]
  refine (List.length_filterMap_le _ _).trans ?_
  rw [Net.arrived, List.length_map]
  exact h p

/-- The ACK of A is still under way and B has not handed anything to the application but the CONNECT; then it comes. -/
example (oc : Bool) :
    (acts (env oc) net0 sched).Run (env oc) nst ∧ (acts (env oc) net0 sched).Fair ∧
    usersIn ((acts (env oc) net0 sched).delivered false) = [] ∧
    (acts (env oc) net0 (sched ++ [.deliver false 0])).Run (env oc) nst ∧
    (∀ p, (acts (env oc) net0 (sched ++ [.deliver false 0])).wire p = []) ∧
    (∀ p, (acts (env oc) net0 (sched ++ [.deliver false 0])).ready p) ∧
    (acts (env oc) net0 (sched ++ [.deliver false 0])).delivered false =
      [.connect (some [7]) pkA, .ack (some []), .message (some []), .message (some [5])] := by
  refine ⟨acts_run (.init (init0 oc)) ?_, fair_short ?_, ?_, acts_run (.init (init0 oc)) ?_, ?_, ?_, ?_⟩
  · cases oc <;> decide +kernel
  · cases oc <;> decide +kernel
  · cases oc <;> decide +kernel
  · cases oc <;> decide +kernel
  · intro p
    have : ((acts (env oc) net0 (sched ++ [.deliver false 0])).wire p).isEmpty = true := by
      cases oc <;> cases p <;> decide +kernel
    simpa using this
  · cases oc <;> decide +kernel
  · cases oc <;> decide +kernel

/-- Deliver everything but the first user message: at some point the schedule becomes unfair. -/
theorem exhaust {env : Env} {st : Bool → CStart} (law : env.cr.Lawful) (hon : Honest env st) (r : Nat) {n : Net} {p : Bool}
    {W : Bool → List Sent} (h0 : n.wrote = W) (hr : n.Run env st) (hf : n.Fair) (hp : n.ready p) (hz : ∀ x ∈ usersOf (n.arrived p), x.1 ≠ 0)
    (hu : (usersOf (n.wrote (!p))).length = (usersOf (n.arrived p)).length + r + 1)
    (hl : 10002 ≤ (usersOf (n.wrote (!p))).length) :
    ∃ (n : Net) (x : Flight) (l1 l2 : List Flight), n.Run env st ∧ n.Fair ∧ n.ready p ∧ n.wire p = l1 ++ x :: l2 ∧
      ¬ (n.received env p x (l1 ++ l2)).Fair ∧ n.wrote = W := by
  induction r generalizing n with
  | zero =>
    exfalso
    have h1 := hf p 0
    have h2 : overtakers ((usersOf (n.arrived p)).map Prod.fst) 0 = (usersOf (n.arrived p)).map Prod.fst := by
      unfold overtakers
      have : ∀ a ∈ (usersOf (n.arrived p)).map Prod.fst, a ≠ 0 := by
        intro a ha
        obtain ⟨x, hx, rfl⟩ := List.mem_map.mp ha
        exact hz x hx
      rw [List.takeWhile_eq_self_iff.mpr (by simpa using this), List.filter_eq_self.mpr]
      intro a ha
      have := this a ha
      simp only [decide_eq_true_eq]
      omega
    rw [h2, List.length_map] at h1
    omega
  | succ r ih =>
    obtain ⟨K, hK, hks⟩ := session_key law hon
    have hi := NetInv.of_run law hon hK hks hr hf
    have hlen := (hi.users p).length_eq
    rw [List.length_append] at hlen
    have hnd := hi.nodup p
    -- one of the messages under way is not the first one
    obtain ⟨y, hy, hy0⟩ : ∃ y ∈ usersOf ((n.wire p).map Flight.what), y.1 ≠ 0 := by
      by_contra hc
      push Not at hc
      rw [List.map_append] at hnd
      have h1 := (List.nodup_append.mp hnd).1
      match h2 : usersOf ((n.wire p).map Flight.what), hlen with
      | [], hlen => simp at hlen; omega
      | [a], hlen => simp at hlen; omega
      | a :: b :: l, _ =>
        rw [h2] at h1 hc
        have h3 := hc a (by simp)
        have h4 := hc b (by simp)
        simp [h3, h4] at h1
    obtain ⟨v, hv, hvy⟩ := List.mem_filterMap.mp hy
    obtain ⟨x, hx, rfl⟩ := List.mem_map.mp hv
    obtain ⟨l1, l2, hx⟩ := List.append_of_mem hx
    by_cases hf' : (n.received env p x (l1 ++ l2)).Fair
    swap
    · exact ⟨n, x, l1, l2, hr, hf, hp, hx, hf', h0⟩
    have harr : (n.received env p x (l1 ++ l2)).arrived p = n.arrived p ++ [x.what] := by
      simp [Net.received, Net.arrived]
    have husr : usersOf ((n.received env p x (l1 ++ l2)).arrived p) = usersOf (n.arrived p) ++ [y] := by
      rw [harr, usersOf_append]
      simp [usersOf, hvy]
    refine ih (n := n.received env p x (l1 ++ l2)) h0 (.step hr (.deliver p x l1 l2 hx)) hf' ⟨hp.1, ?_⟩ ?_ ?_ hl
    · have : (n.received env p x (l1 ++ l2)).delivered p =
          n.delivered p ++ handed ((n.layer p).readBin env x.bytes).2 := by
        simp [Net.received, Net.delivered]
      rw [this, acksIn_append]
      simp [hp.2]
    · rw [husr]
      intro z hz'
      rcases List.mem_append.mp hz' with hz' | hz'
      · exact hz z hz'
      · rw [List.mem_singleton.mp hz']; exact hy0
    · rw [husr, List.length_append]
      show (usersOf (n.wrote (!p))).length = _
      rw [hu]
      simp
      omega

/-- A negotiated party writes `k` messages. -/
theorem write_many (oc : Bool) {n : Net} (hr : n.Run (env oc) nst) (hf : n.Fair) (hp : ∀ q, n.ready q) (p : Bool) (k : Nat)
    (hk : (usersOf (n.wrote p)).length + k < 2 ^ 64) :
    ∃ n' : Net, n'.Run (env oc) nst ∧ n'.Fair ∧ (∀ q, n'.ready q) ∧ n'.log = n.log ∧
      (usersOf (n'.wrote p)).length = (usersOf (n.wrote p)).length + k ∧ n'.wrote (!p) = n.wrote (!p) := by
  induction k with
  | zero => exact ⟨n, hr, hf, hp, rfl, rfl, rfl⟩
  | succ k ih =>
    obtain ⟨m, h1, h2, h3, h4, h5, h6⟩ := ih (by omega)
    obtain ⟨K, hK, hks⟩ := session_key lawful (honest oc)
    have hi := (NetInv.of_run lawful (honest oc) hK hks h1 h2).party p
    have har : ackRead (nst p).expected (connectsOf (m.arrived p)) (acksOf (m.arrived p)) = true := by
      have := (h3 p).2
      rw [hi.dl_ack] at this
      by_contra hc
      simp [hc] at this
    obtain ⟨s', w', b, he, hb, -, hbl, -⟩ := hi.user lawful [] (w := sink) rfl (by decide) (by omega) (h3 p).1 har
    have hgrow : (m.sent p (.user (usersOf (m.wrote p)).length []) sink ((m.layer p).writeBin (env oc) [] sink)).wrote p =
        m.wrote p ++ [.user (usersOf (m.wrote p)).length []] := by
      rw [he]
      simp [Net.sent]
    refine ⟨_, .step h1 (.user p [] sink ⟨rfl, ?_⟩ (by decide) (by omega) (h3 p)), h2, ?_, h4, ?_, ?_⟩
    · rw [he, hb]
      have : ((env oc).cr.deflate (levelFor (m.layer p).minimal.config []) []).length = 1 := rfl
      simp only [List.drop_left]
      omega
    · intro q
      refine ⟨?_, (h3 q).2⟩
      by_cases hq : q = p
      · subst hq
        rw [hgrow, acksOf_append]
        simp [(h3 q).1]
      · have := (h3 q).1
        rw [he]
        simpa [Net.sent, hq] using this
    · rw [hgrow, usersOf_append]
      simp only [usersOf_user, usersOf_nil, List.length_append, List.length_cons, List.length_nil]
      omega
    · rw [← h6]
      simp [Net.sent]

/-- A handshake. -/
def shake : List Act :=
  [.connect true (some [7]), .connect false none, .deliver false 0, .ack false none, .deliver true 1, .deliver true 0,
   .ack true (some []), .deliver false 0]

/-- The limit is reached: the hypotheses of `C21_window_exact` can be met. -/
theorem unfair_exists (oc : Bool) : ∃ (n : Net) (x : Flight) (l1 l2 : List Flight), n.Run (env oc) nst ∧ n.Fair ∧ n.ready false ∧
    n.wire false = l1 ++ x :: l2 ∧ ¬ (n.received (env oc) false x (l1 ++ l2)).Fair ∧
    usersOf (n.wrote false) = [] := by
  have hr : (acts (env oc) net0 shake).Run (env oc) nst := acts_run (.init (init0 oc)) (by cases oc <;> decide +kernel)
  have hf : (acts (env oc) net0 shake).Fair := fair_short (by cases oc <;> decide +kernel)
  have hp : ∀ q, (acts (env oc) net0 shake).ready q := by cases oc <;> decide +kernel
  have hu : usersOf ((acts (env oc) net0 shake).wrote true) = [] := by cases oc <;> decide +kernel
  have ha : usersOf ((acts (env oc) net0 shake).arrived false) = [] := by cases oc <;> decide +kernel
  obtain ⟨n, h1, h2, h3, h4, h5, h6⟩ := write_many oc hr hf hp true 10002 (by rw [hu]; decide)
  have ha' : usersOf (n.arrived false) = [] := by
    rw [Net.arrived, h4]; exact ha
  have hv : usersOf (n.wrote false) = [] := by
    rw [show n.wrote false = _ from h6]; cases oc <;> decide +kernel
  obtain ⟨n', x, l1, l2, e1, e2, e3, e4, e5, e6⟩ :=
    exhaust lawful (honest oc) 10001 (W := n.wrote) (p := false) rfl h1 h2 (h3 false) (by rw [ha']; simp)
      (by rw [ha', Bool.not_false, h5, hu]) (by rw [Bool.not_false, h5, hu]; decide)
  exact ⟨n', x, l1, l2, e1, e2, e3, e4, e5, by rw [e6]; exact hv⟩

end Toy
end Pkstl
