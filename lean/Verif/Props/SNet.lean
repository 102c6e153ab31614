import Verif.Lemmas.SNetSim
import Verif.Props.Channel
import Verif.Props.Net
/- C64: two honest applications that exchange values through the serde API. -/
namespace Pkstl
open Spec

section
variable {M : Type} {env : Env} {st : Bool → CStart} {f : Bool → Features} {c : Codec M} {n : SNet M} {N : Net}

/-! ## What corresponds in the two systems -/

theorem WrapsOpt.reads {f : Features} (hc : c.Lawful) {b : Option Bytes} {m : Option M} (h : WrapsOpt f c b m) :
    ReadsOpt f c b m := by
  cases h with
  | none => exact .none
  | some h => exact .some (h.reads hc)

/-- The value that `read` makes of data. -/
def decodedOpt (f : Features) (c : Codec M) (d : Option Bytes) : Option (Option M) :=
  match deserializeOpt f c d with
  | .ok e => some e
  | _ => none

theorem decodedOpt_reads {f : Features} {d : Option Bytes} {e : Option M} (h : ReadsOpt f c d e) : decodedOpt f c d = some e := by
  unfold decodedOpt
  rw [deserializeOpt_iff.mpr h]

theorem values {f : Features} {L : List (Option Bytes)} {l : List (Option M)} (h : List.Forall₂ (ReadsOpt f c) L l) :
    l = L.filterMap (decodedOpt f c) := by
  induction h with
  | nil => rfl
  | cons h _ ih => rw [List.filterMap_cons_some (decodedOpt_reads h), ← ih]

/-- The same with the key of the peer. -/
def decodedPair (f : Features) (c : Codec M) (d : Option Bytes × Bytes) : Option (Option M × Bytes) :=
  (decodedOpt f c d.1).map fun e => (e, d.2)

theorem values' {f : Features} {L : List (Option Bytes × Bytes)} {l : List (Option M × Bytes)}
    (h : List.Forall₂ (fun x y => ReadsOpt f c x.1 y.1 ∧ x.2 = y.2) L l) : l = L.filterMap (decodedPair f c) := by
  induction h with
  | nil => rfl
  | @cons x y _ _ h _ ih =>
    rw [List.filterMap_cons_some (b := y), ← ih]
    unfold decodedPair
    rw [decodedOpt_reads h.1, h.2]
    rfl

theorem SimS.wrote_connects (hc : c.Lawful) (h : SimS f c N n) (p : Bool) :
    List.Forall₂ (ReadsOpt (f p) c) (connectsOf (N.wrote (!p))) (n.connects (!p)) := by
  have := wraps_connects (h.wrote (!p))
  rw [Bool.not_not] at this
  exact this.imp fun _ _ h => h.reads hc

theorem SimS.wrote_acks (hc : c.Lawful) (h : SimS f c N n) (p : Bool) :
    List.Forall₂ (ReadsOpt (f p) c) (acksOf (N.wrote (!p))) (n.acks (!p)) := by
  have := wraps_acks (h.wrote (!p))
  rw [Bool.not_not] at this
  exact this.imp fun _ _ h => h.reads hc

theorem reads_users {f : Features} (hc : c.Lawful) {L : List (Nat × Bytes)} {l : List (Nat × M)}
    (h : List.Forall₂ (WrapsUser f c) L l) :
    List.Forall₂ (ReadsOpt f c) (L.map fun x => some x.2) (l.map fun x => some x.2) := by
  rw [List.forall₂_map_left_iff, List.forall₂_map_right_iff]
  exact h.imp fun _ _ h => .some (h.2.reads hc)

theorem SimS.wrote_users (hc : c.Lawful) (h : SimS f c N n) (p : Bool) :
    List.Forall₂ (ReadsOpt (f p) c) ((usersOf (N.wrote (!p))).map fun x => some x.2)
      ((n.users (!p)).map fun x => some x.2) := by
  have := wraps_users (h.wrote (!p))
  rw [Bool.not_not] at this
  exact reads_users hc this

/-- Everything that the binary API hands over can be decoded. -/
theorem SimS.readable (law : env.cr.Lawful) (hon : Honest env st) (hc : c.Lawful) (h : SimS f c N n) (hr : N.Run env st)
    (hf : N.Fair) (p : Bool) : ∀ x ∈ N.delivered p, ∃ y, ReadsMsg (f p) c x y := by
  obtain ⟨h1, h2, -⟩ := C15_delivered law hon hr hf p
  have h3 := C21_at_most_once law hon hr hf p
  have left : ∀ {L : List (Option Bytes)} {l : List (Option M)}, List.Forall₂ (ReadsOpt (f p) c) L l → ∀ d ∈ L,
      ∃ e, ReadsOpt (f p) c d e := by
    intro L l hl d hd
    obtain ⟨e, -, he⟩ := forall₂_mem_right hl.flip hd
    exact ⟨e, he⟩
  intro x hx
  cases x with
  | connect d k =>
    have : (d, k) ∈ connectsIn (N.delivered p) := List.mem_filterMap.mpr ⟨_, hx, rfl⟩
    obtain ⟨d', hd, he⟩ := List.mem_map.mp (h1.subset this)
    cases he
    obtain ⟨e, he⟩ := left (h.wrote_connects hc p) d hd
    exact ⟨_, .connect he⟩
  | ack d =>
    have : d ∈ acksIn (N.delivered p) := List.mem_filterMap.mpr ⟨_, hx, rfl⟩
    obtain ⟨e, he⟩ := left (h.wrote_acks hc p) d (h2.subset this)
    exact ⟨_, .ack he⟩
  | message d =>
    have : d ∈ usersIn (N.delivered p) := List.mem_filterMap.mpr ⟨_, hx, rfl⟩
    obtain ⟨e, he⟩ := left (h.wrote_users hc p) d (h3.subset this)
    exact ⟨_, .message he⟩

/-- Every call of `read` hands over what the call of `read_bin` hands over. -/
theorem SimS.results (law : env.cr.Lawful) (hon : Honest env st) (hc : c.Lawful) (h : SimS f c N n) (hr : N.Run env st)
    (hf : N.Fair) (p : Bool) :
    List.Forall₂ (fun (E : Flight × Res (List BinMessage)) (e : SFlight M × Res (List (SerMessage M))) =>
      ∃ xs ys, E.2 = .ok xs ∧ e.2 = .ok ys ∧ List.Forall₂ (ReadsMsg (f p) c) xs ys) (N.log p) (n.log p) := by
  have h1 := C15_no_error law hon hr hf p
  have h2 := h.readable law hon hc hr hf p
  have h3 := h.log p
  unfold Net.delivered at h2
  generalize N.log p = L at h1 h2 h3
  generalize n.log p = l at h3
  induction h3 with
  | nil => exact .nil
  | @cons E e L l hE _ ih =>
    refine .cons ?_ (ih (fun x hx => h1 x (by simp [hx])) fun x hx => h2 x (by
      rw [List.flatMap_cons]; exact List.mem_append_right _ hx))
    obtain ⟨xs, hxs⟩ := h1 E (by simp)
    obtain ⟨ys, hys⟩ := exists_forall₂ (R := ReadsMsg (f p) c) (l := xs) fun x hx => h2 x (by
      rw [List.flatMap_cons, hxs]; exact List.mem_append_left _ hx)
    refine ⟨xs, ys, hxs, ?_, hys⟩
    rw [hE.2, hxs]
    exact deserializeMsgs_iff.mpr hys

theorem SimS.handed (law : env.cr.Lawful) (hon : Honest env st) (hc : c.Lawful) (h : SimS f c N n) (hr : N.Run env st)
    (hf : N.Fair) (p : Bool) : List.Forall₂ (ReadsMsg (f p) c) (N.delivered p) (n.delivered p) := by
  have := h.results law hon hc hr hf p
  unfold Net.delivered SNet.delivered
  generalize N.log p = L at this
  generalize n.log p = l at this
  induction this with
  | nil => exact .nil
  | @cons E e L l h1 _ ih =>
    obtain ⟨xs, ys, h1, h2, h3⟩ := h1
    rw [List.flatMap_cons, List.flatMap_cons, h1, h2]
    exact List.rel_append h3 ih

theorem handed_connects {f : Features} {L : List BinMessage} {l : List (SerMessage M)}
    (h : List.Forall₂ (ReadsMsg f c) L l) :
    List.Forall₂ (fun x y => ReadsOpt f c x.1 y.1 ∧ x.2 = y.2) (connectsIn L)
      (l.filterMap fun m => match m with | .connect d k => some (d, k) | _ => none) :=
  forall₂_filterMap (by
    intro a b hab
    cases hab with
    | connect h => exact .some ⟨h, rfl⟩
    | ack h => exact .none
    | message h => exact .none) h

theorem handed_acks {f : Features} {L : List BinMessage} {l : List (SerMessage M)} (h : List.Forall₂ (ReadsMsg f c) L l) :
    List.Forall₂ (ReadsOpt f c) (acksIn L) (l.filterMap fun m => match m with | .ack d => some d | _ => none) :=
  forall₂_filterMap (by
    intro a b hab
    cases hab with
    | ack h => exact .some h
    | connect h => exact .none
    | message h => exact .none) h

theorem handed_users {f : Features} {L : List BinMessage} {l : List (SerMessage M)} (h : List.Forall₂ (ReadsMsg f c) L l) :
    List.Forall₂ (ReadsOpt f c) (usersIn L) (l.filterMap fun m => match m with | .message d => some d | _ => none) :=
  forall₂_filterMap (by
    intro a b hab
    cases hab with
    | message h => exact .some h
    | ack h => exact .none
    | connect h => exact .none) h

theorem SimS.ready_iff (law : env.cr.Lawful) (hon : Honest env st) (hc : c.Lawful) (h : SimS f c N n) (hr : N.Run env st)
    (hf : N.Fair) (p : Bool) : N.ready p ↔ n.ready p := by
  unfold Net.ready SNet.ready
  exact and_congr (not_congr (forall₂_nil_iff (wraps_acks (h.wrote p))))
    (not_congr (forall₂_nil_iff (handed_acks (h.handed law hon hc hr hf p))))

theorem SimS.got_connects_nil (law : env.cr.Lawful) (hon : Honest env st) (hc : c.Lawful) (h : SimS f c N n)
    (hr : N.Run env st) (hf : N.Fair) (p : Bool) : connectsIn (N.delivered p) = [] ↔ n.gotConnects p = [] :=
  forall₂_nil_iff (handed_connects (h.handed law hon hc hr hf p))

theorem wire_nil (h : SimS f c N n) (p : Bool) : N.wire p = [] ↔ n.wire p = [] := forall₂_nil_iff (h.wire p)

/-! ## C64 -/

/-- **C64, no error.** Whatever the schedule and whichever formats are used, no call of `read` returns an error or
panics. -/
theorem C64_no_error (law : env.cr.Lawful) (hon : Honest env st) (hc : c.Lawful) (hr : n.Run env f c st) (hf : n.Fair)
    (p : Bool) : ∀ e ∈ n.log p, ∃ l, e.2 = .ok l := by
  obtain ⟨N, h1, h2⟩ := SimS.of_run hr
  intro e he
  obtain ⟨E, -, xs, ys, -, h3, -⟩ := forall₂_mem_right (h2.results law hon hc h1 (h2.fair.mpr hf) p) he
  exact ⟨ys, h3⟩

/-- **C64, progress.** `write_connect_msg` succeeds iff it has not succeeded before and the value, if any, can be encoded in
the configured format; `write_ack_msg` iff a CONNECT was handed to the application, it has not succeeded before and the
value, if any, can be encoded; and a party that wrote its ACK and was handed the peer's can write exactly the values that can
be encoded. -/
theorem C64_progress (law : env.cr.Lawful) (hon : Honest env st) (hc : c.Lawful) (hr : n.Run env f c st) (hf : n.Fair)
    (p : Bool) {w : BufW} (hw : w.sink.script = []) :
    (∀ d, ((n.layer p).writeConnectSer env c d w).2.2 = .ok () ↔
      n.connects p = [] ∧ ∃ e, Packs c (n.layer p).minimal.config.messageFormat d e) ∧
    (∀ d, ((n.layer p).writeAckSer env c d w).2.2 = .ok () ↔
      n.gotConnects p ≠ [] ∧ n.acks p = [] ∧ ∃ e, Packs c (n.layer p).minimal.config.messageFormat d e) ∧
    (n.ready p → 16 < w.cap → (n.users p).length + 1 < 2 ^ 64 → ∀ m, ((n.layer p).writeSer env c m w).2.2 = .ok () ↔
      ∃ body, Encodes c (n.layer p).minimal.config.messageFormat m body) := by
  obtain ⟨N, h1, h2⟩ := SimS.of_run hr
  obtain ⟨p1, p2, p3⟩ := C15_progress law hon h1 (h2.fair.mpr hf) p hw
  rw [← h2.layer] at p1 p2 p3
  have e1 : connectsOf (N.wrote p) = [] ↔ n.connects p = [] := forall₂_nil_iff (wraps_connects (h2.wrote p))
  have e2 : acksOf (N.wrote p) = [] ↔ n.acks p = [] := forall₂_nil_iff (wraps_acks (h2.wrote p))
  have e3 := h2.got_connects_nil law hon hc h1 (h2.fair.mpr hf) p
  refine ⟨fun d => ?_, fun d => ?_, fun q1 q2 q3 m => ?_⟩
  · rcases writeConnectSer_cases (env := env) (c := c) (n.layer p) d w with ⟨e, h3, h4⟩ | ⟨r, h3, h4, h5⟩
    · rw [h4, p1, e1]
      exact ⟨fun h => ⟨h, e, h3⟩, fun h => h.1⟩
    · rw [h4]
      exact ⟨fun h => absurd h h3, fun h => absurd h.2 h5⟩
  · rcases writeAckSer_cases (env := env) (c := c) (n.layer p) d w with ⟨e, h3, h4⟩ | ⟨r, h3, h4, h5⟩
    · rw [h4, p2, e2, Ne, e3]
      exact ⟨fun h => ⟨h.1, h.2, e, h3⟩, fun h => ⟨h.1, h.2.1⟩⟩
    · rw [h4]
      exact ⟨fun h => absurd h h3, fun h => absurd h.2.2 h5⟩
  · rcases writeSer_cases (env := env) (c := c) (n.layer p) m w with ⟨e, h3, h4⟩ | ⟨r, h3, h4, h5⟩
    · rw [h4, p3 (h2.ready q1) q2 (by rw [h2.count]; exact q3)]
      exact ⟨fun _ => ⟨e, h3⟩, fun _ => rfl⟩
    · rw [h4]
      exact ⟨fun h => absurd h h3, fun h => absurd h h5⟩

/-- **C64, status.** A party is negotiated iff it wrote its ACK and was handed the peer's; parties that were handed a
CONNECT hold the peer's signature key and the same session secret. -/
theorem C64_status (law : env.cr.Lawful) (hon : Honest env st) (hc : c.Lawful) (hr : n.Run env f c st) (hf : n.Fair) :
    (∀ p, (n.layer p).minimal.status = .success ↔ n.ready p) ∧ (∀ p, n.ready p → n.gotConnects p ≠ []) ∧
    ∃ k, ∀ p, n.gotConnects p ≠ [] → (n.layer p).minimal.secret = some k ∧
      (n.layer p).minimal.peerSigPubkey = some (sigKey env st (!p)) := by
  obtain ⟨N, h1, h2⟩ := SimS.of_run hr
  have hF := h2.fair.mpr hf
  obtain ⟨p1, p2, k, p3⟩ := C15_status law hon h1 hF
  rw [← h2.layer] at p1 p3
  refine ⟨fun p => (p1 p).trans (h2.ready_iff law hon hc h1 hF p), fun p hp => ?_, k, fun p hp => ?_⟩
  · exact fun hcn => p2 p (h2.ready hp) ((h2.got_connects_nil law hon hc h1 hF p).mpr hcn)
  · exact p3 p fun hcn => hp ((h2.got_connects_nil law hon hc h1 hF p).mp hcn)

/-- **C64, CONNECT and ACK.** The values handed to the application are those that the peer wrote, at most once, with the
peer's signature key; once nothing is under way to `p`, all of them. -/
theorem C64_delivered (law : env.cr.Lawful) (hon : Honest env st) (hc : c.Lawful) (hr : n.Run env f c st) (hf : n.Fair)
    (p : Bool) :
    (n.gotConnects p).Sublist ((n.connects (!p)).map fun d => (d, sigKey env st (!p))) ∧
    (n.gotAcks p).Sublist (n.acks (!p)) ∧
    (n.wire p = [] → n.gotConnects p = (n.connects (!p)).map (fun d => (d, sigKey env st (!p))) ∧
      (n.connects (!p) ≠ [] → n.gotAcks p = n.acks (!p))) := by
  obtain ⟨N, h1, h2⟩ := SimS.of_run hr
  have hF := h2.fair.mpr hf
  obtain ⟨p1, p2, p3⟩ := C15_delivered law hon h1 hF p
  have hh := h2.handed law hon hc h1 hF p
  have g1 : n.gotConnects p = _ := values' (handed_connects hh)
  have g2 : n.gotAcks p = _ := values (handed_acks hh)
  have w1 : (n.connects (!p)).map (fun d => (d, sigKey env st (!p))) =
      ((connectsOf (N.wrote (!p))).map fun d => (d, sigKey env st (!p))).filterMap (decodedPair (f p) c) := by
    apply values'
    rw [List.forall₂_map_left_iff, List.forall₂_map_right_iff]
    exact (h2.wrote_connects hc p).imp fun _ _ h => ⟨h, rfl⟩
  have w2 := values (h2.wrote_acks hc p)
  refine ⟨?_, ?_, fun hw => ?_⟩
  · rw [g1, w1]; exact p1.filterMap _
  · rw [g2, w2]; exact p2.filterMap _
  · obtain ⟨q1, q2⟩ := p3 ((wire_nil h2 p).mpr hw)
    refine ⟨by rw [g1, w1, q1], fun hne => ?_⟩
    rw [g2, w2, q2 fun hcn => hne ((forall₂_nil_iff (h2.wrote_connects hc p)).mp hcn)]

/-- **C64.** Whatever the schedule, the formats and the custom data: once both have written CONNECT and ACK and everything
has arrived, both are negotiated with the same session secret and hold each other's signature key. -/
theorem C64_negotiated (law : env.cr.Lawful) (hon : Honest env st) (hc : c.Lawful) (hr : n.Run env f c st) (hf : n.Fair)
    (hempty : ∀ p, n.wire p = []) (hcw : ∀ p, n.connects p ≠ []) (haw : ∀ p, n.acks p ≠ []) :
    ∃ k, ∀ p, (n.layer p).minimal.status = .success ∧ (n.layer p).minimal.secret = some k ∧
      (n.layer p).minimal.peerSigPubkey = some (sigKey env st (!p)) := by
  obtain ⟨h1, h2, k, h3⟩ := C64_status law hon hc hr hf
  have hready : ∀ p, n.ready p := by
    intro p
    have := ((C64_delivered law hon hc hr hf p).2.2 (hempty p)).2 (hcw _)
    exact ⟨haw p, by rw [this]; exact haw _⟩
  exact ⟨k, fun p => ⟨(h1 p).mpr (hready p), h3 p (h2 p (hready p))⟩⟩

/-- **C64, at most once.** Every value handed to the application as a user message was written by the peer, and none is
handed over more often than it was written. -/
theorem C64_at_most_once (law : env.cr.Lawful) (hon : Honest env st) (hc : c.Lawful) (hr : n.Run env f c st) (hf : n.Fair)
    (p : Bool) : (n.gotUsers p).Subperm ((n.users (!p)).map fun x => some x.2) := by
  obtain ⟨N, h1, h2⟩ := SimS.of_run hr
  have hF := h2.fair.mpr hf
  obtain ⟨l, p1, p2⟩ := C21_at_most_once law hon h1 hF p
  have g : n.gotUsers p = _ := values (handed_users (h2.handed law hon hc h1 hF p))
  rw [g, values (h2.wrote_users hc p)]
  exact ⟨_, p1.filterMap _, p2.filterMap _⟩

/-- **C64, arrival order.** After the ACK the values handed to the application are exactly those of the user messages that
have arrived, in the order of their arrival; before the ACK there are none. -/
theorem C64_arrival_order (law : env.cr.Lawful) (hon : Honest env st) (hc : c.Lawful) (hr : n.Run env f c st) (hf : n.Fair)
    (p : Bool) : n.gotUsers p = if n.gotAcks p = [] then [] else (n.usersArrived p).map fun x => some x.2 := by
  obtain ⟨N, h1, h2⟩ := SimS.of_run hr
  have hF := h2.fair.mpr hf
  have hh := h2.handed law hon hc h1 hF p
  have g : n.gotUsers p = _ := values (handed_users hh)
  have ha : acksIn (N.delivered p) = [] ↔ n.gotAcks p = [] := forall₂_nil_iff (handed_acks hh)
  have hu : (n.usersArrived p).map (fun x => some x.2) = _ := values (reads_users hc (wraps_users (h2.arrived p)))
  rw [g, C21_arrival_order law hon h1 hF p, hu]
  by_cases hn : n.gotAcks p = []
  · rw [if_pos hn, if_pos (ha.mpr hn)]; rfl
  · rw [if_neg hn, if_neg fun h => hn (ha.mp h)]

/-- **C64, exactly once.** Once nothing is under way to `p`, the values handed to the application as user messages are
exactly those that the peer wrote, each as often as it was written. -/
theorem C64_exactly_once (law : env.cr.Lawful) (hon : Honest env st) (hc : c.Lawful) (hr : n.Run env f c st) (hf : n.Fair)
    {p : Bool} (hw : n.wire p = []) : (n.gotUsers p).Perm ((n.users (!p)).map fun x => some x.2) := by
  obtain ⟨N, h1, h2⟩ := SimS.of_run hr
  have hF := h2.fair.mpr hf
  have g : n.gotUsers p = _ := values (handed_users (h2.handed law hon hc h1 hF p))
  rw [g, values (h2.wrote_users hc p)]
  exact (C21_exactly_once law hon h1 hF ((wire_nil h2 p).mpr hw)).filterMap _

theorem Spec.SNet.Steps.run {n' : SNet M} (h : n.Steps env f c n') (hr : n.Run env f c st) : n'.Run env f c st := by
  induction h with
  | refl => exact hr
  | step _ hs ih => exact .step ih hs

/-- **C64, no dead end.** From every reachable state the two parties can complete the negotiation. -/
theorem C64_completable (law : env.cr.Lawful) (hon : Honest env st) (hc : c.Lawful) (hr : n.Run env f c st) (hf : n.Fair) :
    ∃ n', n.Steps env f c n' ∧ n'.Fair ∧ ∀ p, n'.ready p ∧ (n'.layer p).minimal.status = .success := by
  obtain ⟨N, h1, h2⟩ := SimS.of_run hr
  obtain ⟨N', h3, h4, h5⟩ := exists_ready law hon h1 (h2.fair.mpr hf)
  obtain ⟨n', h6, h7⟩ := h2.bare h3
  have hf' := h7.fair.mp h4
  have hready : ∀ p, n'.ready p := fun p => (h7.ready_iff law hon hc (h3.steps.run h1) h4 p).mp (h5 p)
  exact ⟨n', h6, hf', fun p => ⟨hready p, ((C64_status law hon hc (h6.run hr) hf').1 p).mpr (hready p)⟩⟩

end

namespace Toy

/-- Calls of the toy parties. -/
inductive SAct where
  | connect (p : Bool) (d : Option UInt8)
  | ack (p : Bool) (d : Option UInt8)
  | user (p : Bool) (m : UInt8)
  | format (p : Bool) (fmt : MessageFormat)
  | deliver (p : Bool) (i : Nat)

/-- The build of party A knows CBOR and JSON, that of B bincode and JSON. -/
def feats : Bool → Features
  | true => ⟨false, true, true⟩
  | false => ⟨true, false, true⟩

def inFormat (fmt : MessageFormat) : Config := { Config.default with messageFormat := fmt }

def sact (env : Env) (n : SNet UInt8) : SAct → SNet UInt8
  | .connect p d => n.sent p (.connect d) sink ((n.layer p).writeConnectSer env codec d sink)
  | .ack p d => n.sent p (.ack d) sink ((n.layer p).writeAckSer env codec d sink)
  | .user p m => n.sent p (.user (n.users p).length m) sink ((n.layer p).writeSer env codec m sink)
  | .format p fmt => { n with layer := Function.update n.layer p ((n.layer p).changeConfig (inFormat fmt)).1 }
  | .deliver p i =>
    match (n.wire p)[i]? with
    | some x => n.received env feats codec p x ((n.wire p).take i ++ (n.wire p).drop (i + 1))
    | none => n

instance (f : Features) (fmt : MessageFormat) : Decidable (Knows? f fmt) := by
  cases fmt <;> unfold Knows? <;> infer_instance

instance (n : SNet UInt8) (p : Bool) : Decidable (n.ready p) := by unfold SNet.ready; infer_instance

instance (n : SNet UInt8) (p : Bool) : Decidable (n.Understood feats p) := by unfold SNet.Understood; infer_instance

def senabled (env : Env) (n : SNet UInt8) : SAct → Bool
  | .connect p d => decide (Fits sink ((n.layer p).writeConnectSer env codec d sink) ∧ (d = none ∨ n.Understood feats p))
  | .ack p d => decide (Fits sink ((n.layer p).writeAckSer env codec d sink) ∧ (d = none ∨ n.Understood feats p))
  | .user p m => decide (Fits sink ((n.layer p).writeSer env codec m sink) ∧ (n.users p).length + 1 < 2 ^ 64 ∧ n.ready p ∧
      n.Understood feats p)
  | .format _ _ => true
  | .deliver p i => decide (i < (n.wire p).length)

theorem sact_step {env : Env} {n : SNet UInt8} {a : SAct} (h : senabled env n a = true) :
    n.Step env feats codec (sact env n a) := by
  cases a with
  | connect p d => simp only [senabled, decide_eq_true_eq] at h; exact .connect p d sink h.1 h.2
  | ack p d => simp only [senabled, decide_eq_true_eq] at h; exact .ack p d sink h.1 h.2
  | user p d => simp only [senabled, decide_eq_true_eq] at h; exact .user p d sink h.1 (by decide) h.2.1 h.2.2.1 h.2.2.2
  | format p fmt => exact .config p _
  | deliver p i =>
    simp only [senabled, decide_eq_true_eq] at h
    simp only [sact, List.getElem?_eq_getElem h]
    exact .deliver p _ _ _ (by simp)

def sacts (env : Env) : SNet UInt8 → List SAct → SNet UInt8
  | n, [] => n
  | n, a :: l => sacts env (sact env n a) l

def senabledAll (env : Env) : SNet UInt8 → List SAct → Bool
  | _, [] => true
  | n, a :: l => senabled env n a && senabledAll env (sact env n a) l

theorem sacts_run {env : Env} {st : Bool → CStart} {n : SNet UInt8} {l : List SAct} (hr : n.Run env feats codec st)
    (h : senabledAll env n l = true) : (sacts env n l).Run env feats codec st := by
  induction l generalizing n with
  | nil => exact hr
  | cons a l ih =>
    simp only [senabledAll, Bool.and_eq_true] at h
    exact ih (.step hr (sact_step h.1)) h.2

def snet0 : SNet UInt8 where
  layer := net0.layer
  wire _ := []
  wrote _ := []
  log _ := []

theorem sinit0 (oc : Bool) : snet0.Init (env oc) nst where
  layer p := by cases p <;> rfl
  wire _ := rfl
  wrote _ := rfl
  log _ := rfl

theorem sfair_short {n : SNet UInt8} (h : ∀ p, (n.log p).length ≤ 10000) : n.Fair := by
  intro p m
  unfold overtakers
  refine (List.length_filter_le _ _).trans ((List.takeWhile_sublist _).length_le.trans ?_)
  rw [List.length_map]
  refine (List.length_filterMap_le _ _).trans ?_
  rw [List.length_map]
  exact h p

/-- A writes bincode and then JSON, which B knows; B writes CBOR.  B's ACK overtakes its CONNECT, both user messages of A
overtake its ACK and each other, and one value of A cannot be encoded in JSON. -/
def ssched : List SAct :=
  [.format true .bincode, .format false .cbor, .connect true (some 7), .connect false (some 9), .deliver false 0,
   .ack false none, .deliver true 1, .deliver true 0, .ack true (some 1), .user true 5, .format true .utf8Json,
   .user true 0, .user true 6, .deliver false 2, .deliver false 1, .deliver false 0]

/-- This is a run of the system, everything has arrived, and everything was handed over. -/
example (oc : Bool) : (sacts (env oc) snet0 ssched).Run (env oc) feats codec nst ∧ (sacts (env oc) snet0 ssched).Fair ∧
    (∀ p, (sacts (env oc) snet0 ssched).wire p = []) ∧ (∀ p, (sacts (env oc) snet0 ssched).ready p) ∧
    (sacts (env oc) snet0 ssched).users true = [(0, 5), (1, 6)] ∧
    (sacts (env oc) snet0 ssched).delivered true = [.ack none, .connect (some 9) pkB] ∧
    (sacts (env oc) snet0 ssched).delivered false =
      [.connect (some 7) pkA, .ack (some 1), .message (some 6), .message (some 5)] := by
  refine ⟨sacts_run (.init (sinit0 oc)) ?_, sfair_short ?_, ?_, ?_, ?_, ?_, ?_⟩
  · cases oc <;> decide +kernel
  · cases oc <;> decide +kernel
  · intro p
    have : ((sacts (env oc) snet0 ssched).wire p).isEmpty = true := by
      cases oc <;> cases p <;> decide +kernel
    simpa using this
  · cases oc <;> decide +kernel
  · cases oc <;> decide +kernel
  · cases oc <;> decide +kernel
  · cases oc <;> decide +kernel

end Toy
end Pkstl
