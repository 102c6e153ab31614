import Verif.Lemmas.Seen
import Verif.Lemmas.CLower
import Verif.Props.Serde
import Verif.Props.Early
import Verif.Props.Robust
/- C52–C56: histories of the complete mode, and what a finished negotiation is based on. -/
namespace Pkstl
open Spec

variable {M : Type} {env : Env} {f : Features}

/-! ## C52: a negotiated session is vouched for by the peer's signatures -/

theorem use_success {s : Layer}
    (huse : (∃ d w, (s.writeMessage env d w).2.2 = .ok ()) ∨ (∃ c, s.tryClone.2 = .ok c)) : s.status = .success := by
  rcases huse with ⟨d, w, h⟩ | ⟨c, h⟩
  · rcases writeMessage_cases env s d w with ⟨-, he⟩ | ⟨_, _, -, he⟩ | ⟨hs, -, he⟩ | ⟨hs, -⟩
    · simp [he] at h
    · simp [he] at h
    · exact hs
    · exact hs
  · exact (tryClone_iff.mp h).1

/-- **C52.** Whenever user messages can be written or the layer can be cloned, the inputs contain a CONNECT and an ACK
signed with one and the same key, the expected one if there is one; the CONNECT announces an ephemeral key, the ACK
answers the layer's own ephemeral key, and the session key is the one derived from exactly these two. -/
theorem C52_negotiated {st : Start} {h : List Event} {s : Layer} (hr : Run env st h s)
    (huse : (∃ d w, (s.writeMessage env d w).2.2 = .ok ()) ∨ (∃ c, s.tryClone.2 = .ok c)) :
    ∃ k epk, Vouched env.cr st (inputs h) s.secret k epk :=
  (Seen.of_run hr).suc (use_success huse)

theorem user_success {st : Start} {h h1 h2 : List Event} {s : Layer} {e : Event} {m : Message} (hr : Run env st h s)
    (hh : h = h1 ++ e :: h2) (hm : m ∈ e.delivers) (hu : isUser m = true) :
    ∃ s1, Run env st h1 s1 ∧ s1.status = .success ∧ s.secret = s1.secret := by
  obtain ⟨s1, s2, hr1, hs2, hr2, ⟨op, he1, rfl⟩ | ⟨he1, -⟩⟩ := hr.at hh
  swap
  · subst he1; simp [Event.delivers] at hm
  have hs : s1.status = .success := by
    by_contra hns
    have := (C10_no_user_data_before_negotiation hr1 (by simp [Layer.tryClone, hns])).1 op m (he1 ▸ hm)
    rw [hu] at this
    simp at this
  exact ⟨s1, hr1, hs, steps_secret_eq (Wf.of_run hr1) ((steps_one env s1 op).trans hs2) (by simp [hs])⟩

/-- **C52.** The same holds before any user message is handed over. -/
theorem C52_user {st : Start} {h h1 h2 : List Event} {s : Layer} {e : Event} {p : Option Bytes} (hr : Run env st h s)
    (hh : h = h1 ++ e :: h2) (hm : Message.message p ∈ e.delivers) :
    ∃ k epk, Vouched env.cr st (inputs h1) s.secret k epk := by
  obtain ⟨s1, hr1, hs1, hsec⟩ := user_success hr hh hm rfl
  obtain ⟨k, epk, h3, h4, h5, h6⟩ := (Seen.of_run hr1).suc hs1
  exact ⟨k, epk, h3, h4, h5, hsec.trans h6⟩

section
variable {st : CStart} {h h1 h2 : List (CEvent M)} {e : CEvent M} {sl : SecureLayer}

/-- **C52.** The same for the complete mode. -/
theorem C52_complete (hr : CRun env f st h sl)
    (huse : (∃ d w, (sl.writeBin env d w).2.2 = .ok ()) ∨ (∃ c, sl.tryClone.2 = .ok c)) :
    ∃ k epk, Vouched env.cr st.inner (cinputs h) sl.minimal.secret k epk := by
  obtain ⟨⟨l, hl, hlow⟩, -⟩ := hr.lower
  rw [← hlow.inputs]
  refine C52_negotiated hl ?_
  rcases huse with ⟨d, w, hw⟩ | ⟨c, hc⟩
  · exact .inl ⟨_, w, hw⟩
  · right
    unfold SecureLayer.tryClone at hc
    rcases hm : sl.minimal.tryClone with ⟨m, c' | e | p⟩ <;> simp [hm] at hc
    exact ⟨c', rfl⟩

theorem mem_deliveries {l : List Event} {m : Message} (hm : m ∈ deliveries l) :
    ∃ l1 e l2, l = l1 ++ e :: l2 ∧ m ∈ e.delivers := by
  obtain ⟨e, he, hd⟩ := List.mem_flatMap.mp hm
  obtain ⟨l1, l2, rfl⟩ := List.append_of_mem he
  exact ⟨l1, e, l2, rfl, hd⟩

/-- The call on the layer inside that handed over a message of this kind. -/
theorem kind_at {k : Kind} (hr : CRun env f st h sl) (hh : h = h1 ++ e :: h2) (hk : k ∈ e.kinds) :
    ∃ l1 es1 e' l2 m, Run env st.inner ((l1 ++ es1) ++ e' :: l2) sl.minimal ∧ LowersAll env.cr f h1 l1 ∧
      (∀ x ∈ inputs es1, x ∈ e.input) ∧ m ∈ e'.delivers ∧ m.kind = k ∧
      (∀ x ∈ es1, x.createsConnect = false ∧ x.createsAck = false) := by
  obtain ⟨l1, es, l2, hl, hlow1, he, -⟩ := hr.lowerAt hh
  have hkinds := he.kinds
  rcases hkinds with h3 | h3
  swap
  · rw [h3] at hk; simp at hk
  rw [h3] at hk
  obtain ⟨m, hm, hmk⟩ := List.mem_map.mp hk
  obtain ⟨es1, e', es2, rfl, hd⟩ := mem_deliveries hm
  have hcon : e.consumesConnect = false ∧ e.consumesAck = false := by
    have : e.kinds ≠ [] := by rw [h3]; exact List.ne_nil_of_mem hk
    cases e <;> simp [CEvent.kinds] at this <;> simp [CEvent.consumesConnect, CEvent.consumesAck]
  refine ⟨l1, es1, e', es2 ++ l2, m, by simpa using hl, hlow1, ?_, hd, hmk, ?_⟩
  · intro x hx
    rw [← he.inp, inputs_append]
    exact List.mem_append_left _ hx
  · intro x hx
    have h4 := he.con
    have h5 := he.ack
    rw [hcon.1] at h4
    rw [hcon.2] at h5
    simp only [Bool.false_eq_true, if_false, List.countP_eq_zero] at h4 h5
    exact ⟨by simpa using h4 x (by simp [hx]), by simpa using h5 x (by simp [hx])⟩

/-- **C52.** And before any user message is handed over in the complete mode; the ACK may be the input of that call. -/
theorem C52_complete_user (hr : CRun env f st h sl) (hh : h = h1 ++ e :: h2) (hu : Kind.user ∈ e.kinds) :
    ∃ k epk, Vouched env.cr st.inner (cinputs (h1 ++ [e])) sl.minimal.secret k epk := by
  obtain ⟨l1, es1, e', l2, m, hl, hlow, hin, hm, hk, -⟩ := kind_at hr hh hu
  cases m with
  | connect => simp [Message.kind] at hk
  | ack => simp [Message.kind] at hk
  | message p =>
    obtain ⟨k, epk, h3, h4, h5, h6⟩ := C52_user hl rfl hm
    have hsub : inputs (l1 ++ es1) ⊆ cinputs (h1 ++ [e]) := by
      intro x hx
      rw [inputs_append] at hx
      simp only [cinputs, List.flatMap_append, List.mem_append]
      rcases List.mem_append.mp hx with hx | hx
      · left; rw [hlow.inputs] at hx; exact hx
      · right; simpa using hin x hx
    exact ⟨k, epk, mono_mem hsub h3, mono_mem hsub h4, h5, h6⟩

/-! ## C53: every negotiation step once, in order -/

/-- **C53.** In the complete mode, too, a layer writes at most one CONNECT and one ACK and hands over at most one of
each. -/
theorem C53_once_each (hr : CRun env f st h sl) :
    h.countP CEvent.consumesConnect ≤ 1 ∧ h.countP CEvent.consumesAck ≤ 1 ∧
    (ckinds h).count .connect ≤ 1 ∧ (ckinds h).count .ack ≤ 1 := by
  obtain ⟨⟨l, hl, hlow⟩, -⟩ := hr.lower
  obtain ⟨h1, h2, h3, h4, -⟩ := C08_once_each hl
  refine ⟨hlow.counts.1 ▸ h1, hlow.counts.2.1 ▸ h2, ?_, ?_⟩
  · refine Nat.le_trans (hlow.kinds.count_le _) (Nat.le_trans (Nat.le_of_eq ?_) h3)
    rw [List.count, List.countP_map]
    congr 1
    funext m
    cases m <;> rfl
  · refine Nat.le_trans (hlow.kinds.count_le _) (Nat.le_trans (Nat.le_of_eq ?_) h4)
    rw [List.count, List.countP_map]
    congr 1
    funext m
    cases m <;> rfl

/-- **C53.** The ACK is written only after a correctly signed CONNECT was read; an ACK is handed over only after the own
CONNECT was written; a user message is handed over, and can be written, only after both own messages were written. -/
theorem C53_order (hr : CRun env f st h sl) :
    (∀ h1 e h2, h = h1 ++ e :: h2 → e.consumesAck = true → ∃ inc ∈ cinputs h1, ∃ epk k, SignedConnect env.cr inc epk k) ∧
    (∀ h1 e h2, h = h1 ++ e :: h2 → Kind.ack ∈ e.kinds → ∃ e' ∈ h1, e'.consumesConnect = true) ∧
    (∀ h1 e h2, h = h1 ++ e :: h2 → Kind.user ∈ e.kinds ∨ e.writesUser = true →
      (∃ e' ∈ h1, e'.consumesConnect = true) ∧ (∃ e' ∈ h1, e'.consumesAck = true)) := by
  refine ⟨?_, ?_, ?_⟩
  · intro h1 e h2 hh hc
    obtain ⟨l1, es, l2, hl, hlow, he, -⟩ := hr.lowerAt hh
    have h3 := he.ack
    rw [hc] at h3
    simp only [if_true] at h3
    obtain ⟨x, hx, hxa⟩ := List.countP_pos_iff.mp (by omega : 0 < es.countP Event.createsAck)
    obtain ⟨es1, es2, rfl⟩ := List.append_of_mem hx
    obtain ⟨y, hy, hyc⟩ := (C08_once_each hl).2.2.2.2.1 (l1 ++ es1) x (es2 ++ l2) (by simp) hxa
    have hin : inputs (es1 ++ x :: es2) = [] := by
      rw [he.inp]
      cases e <;> simp [CEvent.consumesAck] at hc <;> rfl
    cases y with
    | read inc r =>
      obtain ⟨⟨epk, k, hsig⟩, -⟩ := hyc
      rcases List.mem_append.mp hy with hy | hy
      · refine ⟨inc, ?_, epk, k, hsig⟩
        rw [← hlow.inputs]
        exact List.mem_filterMap.mpr ⟨_, hy, rfl⟩
      · have : inc ∈ inputs (es1 ++ x :: es2) := List.mem_filterMap.mpr ⟨_, List.mem_append_left _ hy, rfl⟩
        rw [hin] at this
        simp at this
    | _ => exact False.elim hyc
  · intro h1 e h2 hh hk
    obtain ⟨l1, es1, e', l2, m, hl, hlow, -, hm, hmk, hno⟩ := kind_at hr hh hk
    have hma : isAck m = true := by cases m <;> simp [Message.kind] at hmk; rfl
    obtain ⟨y, hy, hyc⟩ := (C08_once_each hl).2.2.2.2.2 _ _ _ rfl ⟨m, hm, hma⟩
    rcases List.mem_append.mp hy with hy | hy
    · exact exists_of_countP hlow.counts.1 ⟨y, hy, hyc⟩
    · rw [(hno y hy).1] at hyc; simp at hyc
  · intro h1 e h2 hh hk
    rcases hk with hk | hk
    · obtain ⟨l1, es1, e', l2, m, hl, hlow, -, hm, hmk, hno⟩ := kind_at hr hh hk
      have hmu : isUser m = true := by cases m <;> simp [Message.kind] at hmk; rfl
      obtain ⟨⟨y, hy, hyc⟩, -, ⟨z, hz, hzc⟩, -⟩ := C10_user_data_after_negotiation hl rfl hm hmu
      constructor
      · rcases List.mem_append.mp hy with hy | hy
        · exact exists_of_countP hlow.counts.1 ⟨y, hy, hyc⟩
        · rw [(hno y hy).1] at hyc; simp at hyc
      · rcases List.mem_append.mp hz with hz | hz
        · exact exists_of_countP hlow.counts.2.1 ⟨z, hz, hzc⟩
        · rw [(hno z hz).2] at hzc; simp at hzc
    · obtain ⟨s1, s2, hr1, -, -, ⟨op, he, -⟩ | ⟨he, -⟩⟩ := hr.at hh
      swap
      · subst he; simp [CEvent.writesUser] at hk
      have huse : ∃ d w, (s1.minimal.writeMessage env d w).2.2 = .ok () := by
        rw [he] at hk
        cases op <;> simp [cstep, CEvent.writesUser] at hk
        · exact ⟨_, _, hk⟩
        · rename_i c d w
          unfold SecureLayer.writeSer at hk
          cases hser : serialize c d s1.minimal.config.messageFormat <;> simp [hser] at hk
          exact ⟨_, _, hk⟩
      obtain ⟨⟨l, hl, hlow⟩, -⟩ := hr1.lower
      obtain ⟨h3, -, h4, -⟩ := C07_complete_before_use hl (.inl huse)
      exact ⟨exists_of_countP hlow.counts.1 h3, exists_of_countP hlow.counts.2.1 h4⟩

/-! ## C54: everything handed over is genuine -/

/-- Custom data or a user message that travels as `q` is `d` after decompression; nothing travels as nothing. -/
def Spec.Unpacked (cr : Crypto) (q : Bytes) (d : Option Bytes) : Prop :=
  (q = [] ∧ d = none) ∨ (q ≠ [] ∧ ∃ b, cr.inflate q = some b ∧ d = some b)

/-- The messages that a call hands to the application, before deserialisation. -/
inductive Spec.Shows (f : Features) : CEvent M → List BinMessage → Prop where
  | bin {b : Bytes} {ms : List BinMessage} : Shows f (.readBin b (.ok ms)) ms
  | ser {c : Codec M} {b : Bytes} {xs : List BinMessage} {ys : List (SerMessage M)}
      (h : List.Forall₂ (ReadsMsg f c) xs ys) : Shows f (.readSer c b (.ok ys)) xs
  | none {e : CEvent M} (h : e.kinds = []) : Shows f e []

/-- A message handed over to a layer that was created as `st` and has been given the inputs `seen` is genuine: it was
signed, or sealed with the session key. -/
def Spec.Genuine (cr : Crypto) (st : CStart) (sec : Option SecretKey) (seen : List Bytes) : BinMessage → Prop
  | .connect d k => ∃ epk q sig, connectFrame epk k q ++ sig ∈ seen ∧ cr.edVerify k (connectFrame epk k q) sig = true ∧
      Unpacked cr q d ∧ ∀ x, st.expected = some x → k = x
  | .ack d => ∃ k q sig, ackFrame (cr.sha256 (cr.xPublic st.random)) q ++ sig ∈ seen ∧
      cr.edVerify k (ackFrame (cr.sha256 (cr.xPublic st.random)) q) sig = true ∧ Unpacked cr q d ∧
      ∀ x, st.expected = some x → k = x
  | .message d => ∃ k n q, sec = some k ∧ n < 2 ^ 64 ∧ cipherOf cr k n q ∈ seen ∧ Unpacked cr q d

theorem unpacked_of {cr : Crypto} {q : Bytes} {d : Option Bytes}
    (h : SecureLayer.uncompressOpt cr (present q) = .ok d) : Unpacked cr q d := by
  cases q with
  | nil => simp [present, SecureLayer.uncompressOpt] at h; exact .inl ⟨rfl, h.symm⟩
  | cons x q =>
    right
    refine ⟨by simp, ?_⟩
    simp only [present, SecureLayer.uncompressOpt, SecureLayer.uncompress] at h
    cases hi : cr.inflate (x :: q) <;> simp [hi] at h
    exact ⟨_, rfl, h.symm⟩

theorem Lowers.shows {cr : Crypto} {es : List Event} (he : Lowers cr f e es) :
    ∃ xs, Shows f e xs ∧ (List.Forall₂ (Opens cr) (deliveries es) xs ∨ xs = []) := by
  have hnone : e.kinds = [] → ∃ xs, Shows f e xs ∧ (List.Forall₂ (Opens cr) (deliveries es) xs ∨ xs = []) :=
    fun h => ⟨[], .none h, .inr rfl⟩
  cases e with
  | readBin b r =>
    cases r with
    | ok ms => exact ⟨ms, .bin, .inl (he.bin _ _ rfl)⟩
    | _ => exact hnone rfl
  | readSer c b r =>
    cases r with
    | ok ys =>
      obtain ⟨bs, h1, h2⟩ := he.ser _ _ _ rfl
      exact ⟨bs, .ser (deserializeMsgs_iff.mp h2), .inl h1⟩
    | _ => exact hnone rfl
  | _ => exact hnone rfl

theorem Spec.Shows.kinds {xs : List BinMessage} (hsh : Shows f e xs) : e.kinds = xs.map BinMessage.kind := by
  cases hsh with
  | bin => rfl
  | ser h => exact deserializeMsgs_kinds (deserializeMsgs_iff.mpr h)
  | none h => exact h

/-- When no ACK is handed over, everything comes from the call of `read` inside. -/
theorem Lowers.direct {cr : Crypto} {es : List Event} {xs : List BinMessage} (he : Lowers cr f e es) (hsh : Shows f e xs)
    (hxs : List.Forall₂ (Opens cr) (deliveries es) xs) (hack : Kind.ack ∉ e.kinds) {b : Bytes} (hb : b ∈ e.input) :
    ∃ r es', es = .read b r :: es' ∧ deliveries es' = [] := by
  refine (he.now b hb).resolve_left ?_
  rintro ⟨m, hm, ha⟩
  refine hack ?_
  rw [hsh.kinds, opens_kinds hxs]
  exact List.mem_map.mpr ⟨m, hm, by cases m <;> simp [isAck] at ha; rfl⟩

theorem forall₂_mem_right {α β : Type} {R : α → β → Prop} {l : List α} {l' : List β} (h : List.Forall₂ R l l') {y : β}
    (hy : y ∈ l') : ∃ x ∈ l, R x y := by
  induction h with
  | nil => simp at hy
  | cons h _ ih =>
    rcases List.mem_cons.mp hy with rfl | hy
    · exact ⟨_, by simp, h⟩
    · obtain ⟨x, h1, h2⟩ := ih hy
      exact ⟨x, by simp [h1], h2⟩

/-- The inputs from which the messages handed over by the call `e` may come: the input of this call, and when an ACK is
handed over also earlier ones. -/
def Spec.sources (h1 : List (CEvent M)) (e : CEvent M) : List Bytes :=
  if Kind.ack ∈ e.kinds then cinputs (h1 ++ [e]) else e.input

/-- **C54.** Whatever `read_bin` or `read` hands to the application is genuine: a CONNECT or an ACK carries a valid
signature of the expected key, the ACK answers the layer's own ephemeral key, and a user message was sealed with the
session key; the data are what these messages carry, decompressed and, by `read`, deserialised.  The messages come from
the input of this very call; behind an ACK, from earlier inputs, too. -/
theorem C54_genuine (hr : CRun env f st h sl) (hh : h = h1 ++ e :: h2) :
    ∃ xs, Shows f e xs ∧ ∀ x ∈ xs, Genuine env.cr st sl.minimal.secret (sources h1 e) x := by
  obtain ⟨l1, es, l2, hl, hlow, he, -⟩ := hr.lowerAt hh
  obtain ⟨xs, hsh, hxs⟩ := he.shows
  refine ⟨xs, hsh, ?_⟩
  intro x hx
  rcases hxs with hxs | rfl
  swap
  · simp at hx
  obtain ⟨m, hm, hop⟩ := forall₂_mem_right hxs hx
  obtain ⟨es1, e', es2, rfl, hd⟩ := mem_deliveries hm
  have hl' : l1 ++ (es1 ++ e' :: es2 ++ l2) = (l1 ++ es1) ++ e' :: (es2 ++ l2) := by simp
  have hsub : inputs (l1 ++ es1 ++ [e']) ⊆ cinputs (h1 ++ [e]) := by
    have h3 : cinputs (h1 ++ [e]) = inputs (l1 ++ (es1 ++ e' :: es2)) := by
      rw [inputs_append, hlow.inputs, he.inp]; simp [cinputs]
    have h4 : l1 ++ (es1 ++ e' :: es2) = (l1 ++ es1 ++ [e']) ++ es2 := by simp
    rw [h3, h4, inputs_append (l1 ++ es1 ++ [e'])]
    exact List.subset_append_left _ _
  have hinp : e.input ≠ [] := by
    intro h0
    have : e.kinds = [] := by cases e <;> simp [CEvent.input] at h0 <;> rfl
    rw [hsh.kinds] at this
    simp only [List.map_eq_nil_iff] at this
    rw [this] at hx
    simp at hx
  have hnow : Kind.ack ∉ e.kinds → ∃ b r, e.input = [b] ∧ e' = .read b r := by
    intro hack
    obtain ⟨b, hb⟩ : ∃ b, e.input = [b] := by cases e <;> simp [CEvent.input] at hinp ⊢
    obtain ⟨r, es', h3, h4⟩ := he.direct hsh hxs hack (b := b) (by simp [hb])
    refine ⟨b, r, hb, ?_⟩
    cases es1 with
    | nil => simp only [List.nil_append, List.cons.injEq] at h3; exact h3.1
    | cons y es1 =>
      simp only [List.cons_append, List.cons.injEq] at h3
      have : m ∈ deliveries es' := by
        rw [← h3.2]; exact List.mem_flatMap.mpr ⟨e', by simp, hd⟩
      rw [h4] at this
      simp at this
  have hsrc : ∀ {b : Bytes}, b ∈ inputs (l1 ++ es1 ++ [e']) → (∀ b' r, e' = .read b' r → b' = b) → b ∈ sources h1 e := by
    intro b hb hb'
    unfold sources
    split
    · exact hsub hb
    · rename_i hack
      obtain ⟨b', r, h3, h4⟩ := hnow hack
      rw [h3, hb' b' r h4]
      simp
  cases hop with
  | @connect a k d d' hu =>
    obtain ⟨epk, q, sig, h3, h4, h5, -, -, -, h6⟩ := C11_connect_authentic hl hl' hd
    refine ⟨epk, q, sig, hsrc ?_ ?_, h4, unpacked_of (h5 ▸ hu), h6⟩
    · rw [inputs_append, h3]
      simp [inputs]
    · intro b' r h7
      rw [h3] at h7
      simp only [Event.read.injEq] at h7
      exact h7.1.symm
  | @ack d d' hu =>
    obtain ⟨k, q, sig, h3, h4, h5, h6, -⟩ := C12_ack_possession hl hl' hd
    refine ⟨k, q, sig, ?_, h4, unpacked_of (h5 ▸ hu), h6⟩
    have hack : Kind.ack ∈ e.kinds := by
      rw [hsh.kinds]
      exact List.mem_map.mpr ⟨_, hx, rfl⟩
    unfold sources
    rw [if_pos hack]
    exact hsub h3
  | @message d d' hu =>
    obtain ⟨k, n, q, h3, h4, h5, h6, h7⟩ := C23_authentic hl hl' hd
    exact ⟨k, n, q, h3, h4, hsrc h6 h7, unpacked_of (h5 ▸ hu)⟩

/-! ## C55: at most once -/

/-- The user data among messages. -/
def Spec.binUsers (ms : List BinMessage) : List (Option Bytes) :=
  ms.filterMap fun m => match m with
    | .message d => some d
    | _ => none

/-- The user messages that the call hands over have the numbers and payloads `l`, in this order; unless an ACK is handed
over, too, they are what the input of this very call carries. -/
def Spec.CCarries (cr : Crypto) (f : Features) (sec : Option SecretKey) (e : CEvent M) (l : List (Nat × Bytes)) : Prop :=
  (∃ xs, Shows f e xs ∧ List.Forall₂ (fun d x => Unpacked cr x.2 d) (binUsers xs) l) ∧ (∀ x ∈ l, x.1 < 2 ^ 64) ∧
  (Kind.ack ∉ e.kinds → ∀ inc ∈ e.input, ∀ x ∈ l, ∃ k, sec = some k ∧ inc = cipherOf cr k x.1 x.2)

theorem opens_users {cr : Crypto} {ms : List Message} {xs : List BinMessage} (hop : List.Forall₂ (Opens cr) ms xs)
    {l : List (Nat × Bytes)} (hl : userPayloads ms = l.map (fun x => present x.2)) :
    List.Forall₂ (fun d x => Unpacked cr x.2 d) (binUsers xs) l := by
  induction hop generalizing l with
  | nil =>
    cases l with
    | nil => exact .nil
    | cons => simp [userPayloads] at hl
  | @cons m x ms xs hmx _ ih =>
    cases hmx with
    | connect => exact ih (by simpa [userPayloads] using hl)
    | ack => exact ih (by simpa [userPayloads] using hl)
    | @message d d' hu =>
      cases l with
      | nil => simp [userPayloads] at hl
      | cons y l =>
        simp only [userPayloads, List.filterMap_cons, List.map_cons, List.cons.injEq] at hl
        obtain ⟨h1, h2⟩ := hl
        exact .cons (unpacked_of (h1 ▸ hu)) (ih h2)

theorem carries_users {cr : Crypto} {sec : Option SecretKey} {es : List Event} {Ls : List (List (Nat × Bytes))}
    (h : List.Forall₂ (Carries cr sec) es Ls) :
    userPayloads (deliveries es) = Ls.flatten.map (fun x => present x.2) := by
  induction h with
  | nil => rfl
  | @cons e L es Ls hc _ ih =>
    have h1 : deliveries (e :: es) = e.delivers ++ deliveries es := by simp [deliveries]
    have h2 : ∀ a b, userPayloads (a ++ b) = userPayloads a ++ userPayloads b := by simp [userPayloads]
    rw [h1, h2, hc.1, ih]
    simp

theorem forall₂_append_left {α β : Type} {R : α → β → Prop} {l1 l2 : List α} {l : List β}
    (h : List.Forall₂ R (l1 ++ l2) l) : ∃ L1 L2, l = L1 ++ L2 ∧ List.Forall₂ R l1 L1 ∧ List.Forall₂ R l2 L2 := by
  induction l1 generalizing l with
  | nil => exact ⟨[], l, rfl, .nil, h⟩
  | cons x l1 ih =>
    cases h with
    | @cons _ y _ l hxy h =>
      obtain ⟨L1, L2, rfl, h1, h2⟩ := ih h
      exact ⟨y :: L1, L2, rfl, .cons hxy h1, h2⟩

theorem lowers_carries {cr : Crypto} {sec : Option SecretKey} {l : List Event} (hlow : LowersAll cr f h l)
    {Ls : List (List (Nat × Bytes))} (hc : List.Forall₂ (Carries cr sec) l Ls) :
    ∃ Ns, List.Forall₂ (CCarries cr f sec) h Ns ∧ Ns.flatten.Sublist Ls.flatten := by
  induction hlow generalizing Ls with
  | nil => exact ⟨[], .nil, List.nil_sublist _⟩
  | @snoc h l es e hl he ih =>
    obtain ⟨L1, L2, rfl, hc1, hc2⟩ := forall₂_append_left hc
    obtain ⟨Ns, h1, h2⟩ := ih hc1
    obtain ⟨xs, hsh, hxs⟩ := he.shows
    have key : ∃ N, CCarries cr f sec e N ∧ N.Sublist L2.flatten := by
      rcases hxs with hxs | rfl
      · refine ⟨_, ⟨⟨xs, hsh, opens_users hxs (carries_users hc2)⟩, ?_, ?_⟩, .refl _⟩
        · intro x hx
          obtain ⟨l, hl, hxl⟩ := List.mem_flatten.mp hx
          obtain ⟨e', -, hc⟩ := forall₂_mem_right hc2 hl
          exact hc.2.1 x hxl
        · intro hack inc hinc x hx
          obtain ⟨r, es', rfl, hes⟩ := he.direct hsh hxs hack hinc
          cases hc2 with
          | @cons _ L _ L' hcr hc' =>
            have h3 := carries_users hc'
            rw [hes] at h3
            have h3 : L'.flatten = [] := List.map_eq_nil_iff.mp h3.symm
            rw [List.flatten_cons, h3, List.append_nil] at hx
            exact hcr.2.2 _ _ rfl x hx
      · exact ⟨[], ⟨⟨[], hsh, .nil⟩, by simp, by simp⟩, List.nil_sublist _⟩
    obtain ⟨N, h3, h4⟩ := key
    refine ⟨Ns ++ [N], List.rel_append h1 (.cons h3 .nil), ?_⟩
    simp only [List.flatten_append, List.flatten_cons, List.flatten_nil, List.append_nil]
    exact h2.append h4

/-- **C55.** The user messages handed over by `read_bin` and `read` in the whole life of a layer and its clones carry
pairwise different numbers, each from an input sealed with the session key under that number. -/
theorem C55_at_most_once (hr : CRun env f st h sl)
    (hb : env.overflowChecks = true ∨ (cinputs h).length < 2 ^ 64) :
    ∃ Ns, List.Forall₂ (CCarries env.cr f sl.minimal.secret) h Ns ∧ (Ns.flatten.map Prod.fst).Nodup ∧
      ∀ x ∈ Ns.flatten, ∃ k, sl.minimal.secret = some k ∧ cipherOf env.cr k x.1 x.2 ∈ cinputs h := by
  obtain ⟨⟨l, hl, hlow⟩, -⟩ := hr.lower
  rw [← hlow.inputs] at hb ⊢
  obtain ⟨Ls, h1, h2, h3⟩ := C17_at_most_once hl hb
  obtain ⟨Ns, h4, h5⟩ := lowers_carries hlow h1
  exact ⟨Ns, h4, h2.sublist (h5.map _), fun x hx => h3 x (h5.subset hx)⟩

/-- **C55.** If the only inputs sealed with the session key are the messages `W`, then the user messages handed over are
some of them, each no more often than it is in `W`, whatever else the network does: drop, repeat, reorder, or insert
anything. -/
theorem C55_only_written (hr : CRun env f st h sl)
    (hb : env.overflowChecks = true ∨ (cinputs h).length < 2 ^ 64) (W : List (Nat × Bytes))
    (hforge : ∀ k n q, sl.minimal.secret = some k → n < 2 ^ 64 → cipherOf env.cr k n q ∈ cinputs h → (n, q) ∈ W) :
    ∃ Ns, List.Forall₂ (CCarries env.cr f sl.minimal.secret) h Ns ∧ Ns.flatten.Subperm W := by
  obtain ⟨Ns, h1, h2, h3⟩ := C55_at_most_once hr hb
  refine ⟨Ns, h1, List.subperm_of_subset (List.Nodup.of_map _ h2) ?_⟩
  intro x hx
  obtain ⟨k, h4, h5⟩ := h3 x hx
  obtain ⟨L, hL, hxL⟩ := List.mem_flatten.mp hx
  obtain ⟨e, -, he⟩ := forall₂_mem_right h1 hL
  exact hforge k x.1 x.2 h4 (he.2.1 x hxL) h5

/-- A toy session in which one message was written, delivered and replayed: the hypotheses of `C55_only_written` hold. -/
example (oc : Bool) : ∃ (h : List (CEvent Unit)) (sl : SecureLayer), CRun (Toy.env oc) f Toy.cstB h sl ∧
    .readBin (cipherOf Toy.cr Toy.key 0 [0, 5]) (.ok [.message (some [5])]) ∈ h ∧
    (cinputs h).count (cipherOf Toy.cr Toy.key 0 [0, 5]) = 2 ∧
    ∀ k n q, sl.minimal.secret = some k → n < 2 ^ 64 → cipherOf Toy.cr k n q ∈ cinputs h → (n, q) ∈ [(0, [0, 5])] := by
  have s1 : ((Toy.csB (Toy.layer0 [2] none)).readBin (Toy.env oc) Toy.cconA).1 = Toy.csB Toy.b1 := by
    cases oc <;> decide +kernel
  have s4 : ((Toy.csB Toy.b3).readBin (Toy.env oc) Toy.cackA).1 = Toy.csB Toy.b4 := by cases oc <;> decide +kernel
  have s5 : (Toy.csB Toy.b4).readBin (Toy.env oc) (cipherOf Toy.cr Toy.key 0 [0, 5]) =
      (Toy.csB { Toy.b4 with nextNonceExpected := 1 }, .ok [.message (some [5])]) :=
    Prod.ext (by cases oc <;> decide +kernel) (by cases oc <;> decide +kernel)
  have s6 : ((Toy.csB { Toy.b4 with nextNonceExpected := 1 }).readBin (Toy.env oc) (cipherOf Toy.cr Toy.key 0 [0, 5])).1 =
      Toy.csB { Toy.b4 with nextNonceExpected := 1 } := by cases oc <;> decide +kernel
  have r0 : CRun (M := Unit) (Toy.env oc) f Toy.cstB [] (Toy.csB (Toy.layer0 [2] none)) := .init rfl
  have r1 := r0.call (.readBin Toy.cconA)
  simp only [cstep, s1] at r1
  have r2 := r1.call (.connectBin none Toy.sink)
  rw [show (cstep (M := Unit) (Toy.env oc) f (Toy.csB Toy.b1) (.connectBin none Toy.sink)).1 = Toy.csB Toy.b2 from rfl] at r2
  have r3 := r2.call (.ackBin none Toy.sink)
  rw [show (cstep (M := Unit) (Toy.env oc) f (Toy.csB Toy.b2) (.ackBin none Toy.sink)).1 = Toy.csB Toy.b3 from rfl] at r3
  have r4 := r3.call (.readBin Toy.cackA)
  simp only [cstep, s4] at r4
  have r5 := r4.call (.readBin (cipherOf Toy.cr Toy.key 0 [0, 5]))
  simp only [cstep, s5] at r5
  have r6 := r5.call (.readBin (cipherOf Toy.cr Toy.key 0 [0, 5]))
  simp only [cstep, s6] at r6
  refine ⟨_, _, r6, by simp, ?_, ?_⟩
  · simp only [cinputs, CEvent.input, List.flatMap_append, List.flatMap_cons, List.flatMap_nil, List.append_nil,
      List.nil_append]
    decide +kernel
  · intro k n q hk hn hin
    have hk : k = Toy.key := by
      have : some Toy.key = some k := hk
      exact (Option.some.inj this).symm
    subst hk
    have hhead : (cipherOf Toy.cr Toy.key n q).head? = some 0xE3 := by
      simp only [cipherOf, aeadSeal, xorKeystream, userFrame, frame, List.cons_append, List.mapIdx_cons, List.head?_cons]
      rfl
    simp only [cinputs, CEvent.input, List.flatMap_append, List.flatMap_cons, List.flatMap_nil, List.append_nil,
      List.nil_append, List.mem_append, List.mem_singleton, List.not_mem_nil, or_false, false_or] at hin
    have hother : ∀ b : Bytes, b.head? = some 0xE2 → cipherOf Toy.cr Toy.key n q ≠ b := by
      intro b hb he
      rw [he, hb] at hhead
      exact absurd hhead (by decide)
    rcases hin with ((hin | hin) | hin) | hin
    · exact absurd hin (hother _ rfl)
    · exact absurd hin (hother _ rfl)
    · obtain ⟨rfl, rfl⟩ := cipherOf_inj Toy.lawful hn (by decide) hin
      simp
    · obtain ⟨rfl, rfl⟩ := cipherOf_inj Toy.lawful hn (by decide) hin
      simp

/-! ## C56: failure is final -/

/-- Nothing is handed over, written or cloned. -/
def Spec.CEvent.inert : CEvent M → Prop
  | .readBin _ r => ∀ m ms, r ≠ .ok (m :: ms)
  | .readSer _ _ r => ∀ m ms, r ≠ .ok (m :: ms)
  | .connectBin _ w w' r => w' = w ∧ r ≠ .ok ()
  | .connectSer _ _ w w' r => w' = w ∧ r ≠ .ok ()
  | .ackBin _ w w' r => w' = w ∧ r ≠ .ok ()
  | .ackSer _ _ w w' r => w' = w ∧ r ≠ .ok ()
  | .writeBin _ w w' r => w' = w ∧ r ≠ .ok ()
  | .writeSer _ _ w w' r => w' = w ∧ r ≠ .ok ()
  | .clone r => r ≠ .ok ()
  | .config _ _ => True

theorem cstep_inert (hr : CRun env f st h sl) (hf : sl.minimal.status = .fail) (op : COp M) :
    (cstep env f sl op).2.inert := by
  have hw := hr.wf
  have con : ∀ d w, (sl.writeConnectRaw env d w).2.1 = w ∧ (sl.writeConnectRaw env d w).2.2 ≠ .ok () := by
    intro d w
    rcases writeConnectRaw_cases env sl d w with ⟨-, he⟩ | ⟨seed, -, -, he⟩ | ⟨seed, rem, hs, h1, he⟩
    · rw [he]; simp
    · rw [he]; simp
    · rw [hf] at h1; simp at h1
  have ack : ∀ d w, (sl.writeAckRaw env d w).2.1 = w ∧ (sl.writeAckRaw env d w).2.2 ≠ .ok () := by
    intro d w
    rcases writeAckRaw_cases hw d w with ⟨-, he⟩ | ⟨seed, -, -, he⟩ | ⟨seed, loc, epk, hs, h1, hp, he⟩
    · rw [he]; simp
    · rw [he]; simp
    · rw [hf] at h1; simp at h1
  have wr : ∀ d w, (sl.writeBinRaw env d w).2.1 = w ∧ (sl.writeBinRaw env d w).2.2 ≠ .ok () := by
    intro d w
    show (sl.minimal.writeMessage env d w).2.1 = w ∧ (sl.minimal.writeMessage env d w).2.2 ≠ .ok ()
    rcases writeMessage_cases env sl.minimal d w with ⟨-, he⟩ | ⟨_, _, h1, -⟩ | ⟨h1, -⟩ | ⟨h1, -⟩
    · rw [he]; simp
    · rw [hf] at h1; simp at h1
    · rw [hf] at h1; simp at h1
    · rw [hf] at h1; simp at h1
  have rd : ∀ b m ms, (sl.readBin env b).2 ≠ .ok (m :: ms) := by
    intro b m ms
    obtain ⟨⟨l, hl, -⟩, -⟩ := hr.lower
    have h1 := (C09_fail_forever hl hf (steps_one env _ (.read b))).2 _ (List.mem_singleton.mpr rfl)
    simp only [step, Inert] at h1
    unfold SecureLayer.readBin
    rcases hrd : sl.minimal.read env b with ⟨m', (_ | x) | e | p⟩
    · simp
    · rw [hrd] at h1; exact absurd rfl (h1 x)
    · simp
    · simp
  cases op with
  | readBin b => exact rd b
  | readSer c b =>
    simp only [cstep, CEvent.inert, SecureLayer.readSer]
    intro m ms
    rcases hrd : sl.readBin env b with ⟨s', (_ | ⟨x, xs⟩) | e | p⟩
    · simp [deserializeMsgs]
    · exact absurd (congrArg Prod.snd hrd) (rd b x xs)
    · simp
    · simp
  | connectBin d w => exact con _ _
  | ackBin d w => exact ack _ _
  | writeBin d w => exact wr _ _
  | connectSer c d w =>
    simp only [cstep, CEvent.inert, SecureLayer.writeConnectSer]
    cases hs : SecureLayer.serializeOpt env.cr c sl d with
    | ok d' => exact con _ _
    | err e => simp
    | panic p => simp
  | ackSer c d w =>
    simp only [cstep, CEvent.inert, SecureLayer.writeAckSer]
    cases hs : SecureLayer.serializeOpt env.cr c sl d with
    | ok d' => exact ack _ _
    | err e => simp
    | panic p => simp
  | writeSer c m w =>
    simp only [cstep, CEvent.inert, SecureLayer.writeSer]
    cases hs : serialize c m sl.minimal.config.messageFormat with
    | ok d' => exact wr _ _
    | err e => simp
    | panic p => simp
  | clone =>
    simp only [cstep, CEvent.inert, SecureLayer.tryClone, Layer.tryClone, hf]
    simp [unitRes]
  | config c => trivial

/-- **C56.** A failed complete layer stays failed: whatever is called on it afterwards, nothing is handed over, nothing is
written, and it cannot be cloned. -/
theorem C56_fail_forever {h' : List (CEvent M)} {sl' : SecureLayer} (hr : CRun env f st h sl)
    (hf : sl.minimal.status = .fail) (hs : CSteps env f sl h' sl') :
    sl'.minimal.status = .fail ∧ ∀ e ∈ h', e.inert := by
  have hfail : ∀ {h'' sl''}, CSteps (M := M) env f sl h'' sl'' → sl''.minimal.status = .fail := by
    intro h'' sl'' hs
    obtain ⟨⟨l, hl, -⟩, -⟩ := hr.lower
    obtain ⟨l', hl', -⟩ := hs.lower hr
    exact (C09_fail_forever hl hf hl').1
  refine ⟨hfail hs, ?_⟩
  induction hs with
  | refl => simp
  | call hst op ih =>
    intro e he
    rcases List.mem_append.mp he with he | he
    · exact ih e he
    · simp only [List.mem_singleton] at he
      subst he
      exact cstep_inert (hr.steps hst) (hfail hst) op
  | @cloned s' c h' hst hc ih =>
    have h1 := hfail hst
    simp [SecureLayer.tryClone, Layer.tryClone, h1] at hc

/-- Errors of `read_bin` that leave the layer usable: those of `read` in minimal mode, and a payload that does not
decompress. -/
def Spec.nonFatalBin : Error → Bool
  | .zipError => true
  | e => nonFatal e

/-- An error that is not among the non-fatal ones fails the layer, any other outcome leaves a failed layer failed and a
sound one sound. -/
structure Final (e? : Option Error) (a b : Status) : Prop where
  fatal : ∀ e, e? = some e → nonFatalBin e = false → b = .fail
  sound : (∀ e, e? = some e → nonFatalBin e = true) → (b = .fail ↔ a = .fail)

/-- The error of a result. -/
def Res.error? {α : Type} : Res α → Option Error
  | .err e => some e
  | _ => none

theorem getMessage_error? (d : DecryptedIncomingData) : (Layer.getMessage d).error? = none := by
  rcases getMessage_cases d with ⟨p, h⟩ | h <;> rw [h] <;> rfl

theorem Final.same {a : Status} {e? : Option Error} (h : ∀ e, e? = some e → nonFatalBin e = true) : Final e? a a :=
  ⟨fun e he hf => by rw [h e he] at hf; simp at hf, fun _ => Iff.rfl⟩

theorem Final.failed {a : Status} {e : Error} (h : nonFatalBin e = false) : Final (some e) a .fail :=
  ⟨fun _ _ _ => rfl, fun hn => by rw [hn e rfl] at h; simp at h⟩

theorem readInner_final (s : Layer) (inc : Bytes) (chk : Bool) :
    Final (s.readInner env inc chk).2.error? s.status (s.readInner env inc chk).1.status := by
  have hcase := readInner_case env s inc chk
  generalize (s.readInner env inc chk).2 = r at hcase
  generalize (s.readInner env inc chk).1 = s1 at hcase
  have good : ∀ {a b : Status}, a ≠ .fail → b ≠ .fail → ∀ {e?}, (∀ e, e? = some e → nonFatalBin e = true) → Final e? a b :=
    fun ha hb _ h => ⟨fun e he hf => by rw [h e he] at hf; simp at hf, fun _ => ⟨fun h => absurd h hb, fun h => absurd h ha⟩⟩
  cases hcase with
  | parsePanic => exact .same (by simp [Res.error?])
  | parseErr hp =>
    refine .failed ?_
    rcases readerRead_err hp with rfl | ⟨i, hi, rfl⟩
    · rfl
    · simp only [headerErrors, List.mem_cons, List.not_mem_nil, or_false] at hi
      rcases hi with rfl | rfl | rfl | rfl | rfl | rfl <;> rfl
  | connectKey => exact .same (by simp [Res.error?, nonFatalBin, nonFatal])
  | connectShort => exact .same (by simp [Res.error?])
  | connectBadSig => exact .same (by simp [Res.error?, nonFatalBin, nonFatal])
  | connectLate hp hh hk hl hv hs he =>
    refine .failed ?_
    rw [he]; split <;> rfl
  | connectNoKp hp hh hk hl hv hs =>
    refine good (by simp [hs]) (by simp) ?_
    split
    · simp [getMessage_error?]
    · simp [Res.error?]
  | connectNoAgreement hp hh hk hl hv hs =>
    exact good (by simp [hs]) (by simp) (by simp [Res.error?, nonFatalBin, nonFatal])
  | connectOk hp hh hk hl hv hs => exact good (by simp [hs]) (by simp) (by simp [getMessage_error?])
  | ackChallenge => exact .same (by simp [Res.error?, nonFatalBin, nonFatal])
  | ackStored => exact .same (by simp [Res.error?])
  | ackTwice => exact .failed rfl
  | ackShort => exact .same (by simp [Res.error?])
  | ackBadSig => exact .same (by simp [Res.error?, nonFatalBin, nonFatal])
  | ackLate hp hh hc hk hl hv hs he =>
    refine .failed ?_
    rw [he]; split <;> rfl
  | ackOk hp hh hc hk hl hv hs =>
    refine good (by simp [hs]) ?_ (by simp [getMessage_error?])
    dsimp only
    split <;> simp
  | userReplay => exact .same (by simp [Res.error?, nonFatalBin, nonFatal])
  | userLate hp hh hn hs hs' he =>
    refine .failed ?_
    rw [he]; split <;> rfl
  | userStacked => exact .same (by simp [Res.error?])
  | userShort => exact .same (by simp [Res.error?])
  | userBadHash => exact .same (by simp [Res.error?, nonFatalBin, nonFatal])
  | @userNonceErr d n s1 e1 hp hh hn hs hl hv hu =>
    obtain ⟨O', n', t, h1, -, -, -, h5⟩ := updateNonces_frame env s n
    rw [hu] at h1 h5
    obtain ⟨rfl, rfl⟩ := h5 _ rfl
    have h1 : s1 = _ := h1
    rw [h1]
    exact .failed rfl
  | @userNoncePanic d n s1 p hp hh hn hs hl hv hu =>
    obtain ⟨O', n', t, h1, -, -, h4, -⟩ := updateNonces_frame env s n
    rw [hu] at h1 h4
    have h1 : s1 = _ := h1
    rw [h1, h4 ⟨p, rfl⟩]
    exact .same (by simp [Res.error?])
  | @userOk d n s1 hp hh hn hs hl hv hu =>
    obtain ⟨O', n', t, h1, -, h3, -, -⟩ := updateNonces_frame env s n
    rw [hu] at h1 h3
    have h1 : s1 = _ := h1
    rw [h1, h3 rfl]
    exact .same (by simp [getMessage_error?])

theorem Final.trans {a b c : Status} {e? : Option Error} (h1 : Final none a b) (h2 : Final e? b c) : Final e? a c :=
  ⟨h2.fatal, fun h => (h2.sound h).trans (h1.sound (by simp))⟩

theorem drainLoop_final (s : Layer) (bs : List Bytes) (ms : List Message) :
    Final (s.drainLoop env bs ms).2.error? s.status (s.drainLoop env bs ms).1.status := by
  induction bs generalizing s ms with
  | nil => exact .same (by simp [Layer.drainLoop, Res.error?])
  | cons b bs ih =>
    have h1 := readInner_final (env := env) s b false
    rw [Layer.drainLoop]
    rcases hr : s.readInner env b false with ⟨s', (_ | m) | e | p⟩ <;> rw [hr] at h1
    · exact h1.trans (ih _ _)
    · exact h1.trans (ih _ _)
    · exact h1
    · exact h1

theorem takeAck_final (s : Layer) : Final (s.takeAck env).2.error? s.status (s.takeAck env).1.status := by
  rcases takeAck_cases env s with ⟨-, he⟩ | ⟨b, hb, he⟩
  · rw [he]; exact .same (by simp [Res.error?])
  · rw [he]
    exact readInner_final { s with ackMsgRecvTooEarly := none } b true

theorem uncompressOpt_zip {cr : Crypto} {d : Option Bytes} {e : Error} (h : SecureLayer.uncompressOpt cr d = .err e) :
    e = .zipError := by
  unfold SecureLayer.uncompressOpt SecureLayer.uncompress at h
  cases d with
  | none => simp at h
  | some b => cases hi : cr.inflate b <;> simp [hi] at h; exact h.symm

theorem uncompressUserMsgs_zip {cr : Crypto} {ms : List Message} {acc : List BinMessage} {e : Error}
    (h : SecureLayer.uncompressUserMsgs cr ms acc = .err e) : e = .zipError := by
  induction ms generalizing acc with
  | nil => simp [SecureLayer.uncompressUserMsgs] at h
  | cons m ms ih =>
    cases m with
    | message d =>
      unfold SecureLayer.uncompressUserMsgs at h
      cases hd : SecureLayer.uncompressOpt cr d with
      | ok d' => rw [hd] at h; exact ih h
      | err e' => rw [hd] at h; simp only [Res.err.injEq] at h; exact h ▸ uncompressOpt_zip hd
      | panic p => rw [hd] at h; simp at h
    | connect => exact ih h
    | ack => exact ih h

theorem uncompressOpt_soft {cr : Crypto} {d : Option Bytes} {e : Error} (h : SecureLayer.uncompressOpt cr d = .err e) :
    ∀ e', (Res.err e : Res (List BinMessage)).error? = some e' → nonFatalBin e' = true := by
  intro e' he
  simp only [Res.error?, Option.some.injEq] at he
  subst he
  rw [uncompressOpt_zip h]; rfl

theorem readBin_final (sl : SecureLayer) (b : Bytes) :
    Final (sl.readBin env b).2.error? sl.minimal.status (sl.readBin env b).1.minimal.status := by
  have h1 := readInner_final (env := env) sl.minimal b true
  unfold SecureLayer.readBin Layer.read
  rcases hr : sl.minimal.readInner env b true with ⟨m, (_ | mm) | e | p⟩ <;> rw [hr] at h1
  · exact h1
  · have h1 : Final none sl.minimal.status m.status := h1
    cases mm with
    | connect a k d =>
      dsimp only
      cases hu : SecureLayer.uncompressOpt env.cr d with
      | err e => exact h1.trans (.same (uncompressOpt_soft hu))
      | panic p => exact h1
      | ok cd =>
        dsimp only
        have h2 := takeAck_final (env := env) m
        rcases ht : m.takeAck env with ⟨m2, (_ | mm) | e | p⟩ <;> rw [ht] at h2
        · exact h1.trans h2
        · cases mm with
          | ack d2 =>
            dsimp only
            have h2 : Final none m.status m2.status := h2
            cases hu : SecureLayer.uncompressOpt env.cr d2 with
            | err e => exact h1.trans (h2.trans (.same (uncompressOpt_soft hu)))
            | panic p => exact h1.trans h2
            | ok cd => exact h1.trans h2
          | connect _ _ _ => exact h1.trans h2
          | message _ => exact h1.trans h2
        · exact h1.trans h2
        · exact h1.trans h2
    | ack d =>
      dsimp only
      cases hu : SecureLayer.uncompressOpt env.cr d with
      | err e => exact h1.trans (.same (uncompressOpt_soft hu))
      | panic p => exact h1
      | ok cd =>
        dsimp only
        have h2 := drainLoop_final (env := env) { m with tmpStack := [] } m.tmpStack []
        unfold Layer.drainTmpStack
        rcases ht : Layer.drainLoop env { m with tmpStack := [] } m.tmpStack [] with ⟨m2, ms | e | p⟩ <;> rw [ht] at h2
        · have h2 : Final none m.status m2.status := h2
          dsimp only
          refine h1.trans (h2.trans (.same ?_))
          intro e he
          cases hu : SecureLayer.uncompressUserMsgs env.cr ms [.ack cd] with
          | ok _ => simp [hu, Res.error?] at he
          | panic _ => simp [hu, Res.error?] at he
          | err e' =>
            simp only [hu, Res.error?, Option.some.injEq] at he
            rw [← he, uncompressUserMsgs_zip hu]; rfl
        · exact h1.trans h2
        · exact h1.trans h2
    | message d =>
      dsimp only
      cases hu : SecureLayer.uncompressOpt env.cr d with
      | err e => exact h1.trans (.same (uncompressOpt_soft hu))
      | panic p => exact h1
      | ok cd => exact h1
  · exact h1
  · exact h1

/-- **C56.** After an error of `read_bin` that is not among the non-fatal ones the layer is failed for good. -/
theorem C56_fatal {inc : Bytes} {e : Error} {h' : List (CEvent M)} {sl1 sl' : SecureLayer} (hr : CRun env f st h sl)
    (hrd : sl.readBin env inc = (sl1, .err e)) (he : nonFatalBin e = false) (hs : CSteps env f sl1 h' sl') :
    sl1.minimal.status = .fail ∧ sl'.minimal.status = .fail ∧ ∀ e ∈ h', e.inert := by
  have h1 := (readBin_final (env := env) sl inc).fatal e (by rw [hrd]; rfl) he
  rw [hrd] at h1
  have hr1 : CRun env f st (h ++ [(cstep env f sl (.readBin inc)).2]) (cstep env f sl (.readBin inc)).1 :=
    .call hr _
  have h2 : (cstep (M := M) env f sl (.readBin inc)).1 = sl1 := by simp [cstep, hrd]
  rw [h2] at hr1
  exact ⟨h1, C56_fail_forever hr1 h1 hs⟩

/-- **C56.** No other outcome of `read_bin` fails the layer: results, panics, and the non-fatal errors, including those that
come up while the held-back ACK or the early messages are processed. -/
theorem C56_sound {inc : Bytes} {r : Res (List BinMessage)} {sl1 : SecureLayer}
    (hrd : sl.readBin env inc = (sl1, r)) (he : ∀ e, r = .err e → nonFatalBin e = true) :
    sl1.minimal.status = .fail ↔ sl.minimal.status = .fail := by
  have h1 := (readBin_final (env := env) sl inc).sound (by
    intro e h
    rw [hrd] at h
    refine he e ?_
    cases r <;> simp_all [Res.error?])
  rw [hrd] at h1
  exact h1

/-- A toy session in which a user message is handed over: the hypotheses of C52–C55 hold, also for a later write and a
clone. -/
example (oc : Bool) : ∃ (h1 : List (CEvent Unit)) (e : CEvent Unit) (sl : SecureLayer),
    CRun (Toy.env oc) f Toy.cstB (h1 ++ [e]) sl ∧ e.kinds = [.user] ∧
    e = .readBin (cipherOf Toy.cr Toy.key 0 [0, 5]) (.ok [.message (some [5])]) ∧
    (∃ d w, (sl.writeBinRaw (Toy.env oc) d w).2.2 = .ok ()) ∧ ∃ c, sl.tryClone.2 = .ok c := by
  obtain ⟨h1, hr⟩ := Toy.creach_b4 Unit f oc
  have h2 : (cstep (M := Unit) (Toy.env oc) f (Toy.csB Toy.b4) (.readBin (cipherOf Toy.cr Toy.key 0 [0, 5]))).2 =
      .readBin (cipherOf Toy.cr Toy.key 0 [0, 5]) (.ok [.message (some [5])]) := by
    have : ((Toy.csB Toy.b4).readBin (Toy.env oc) (cipherOf Toy.cr Toy.key 0 [0, 5])).2 =
        .ok [.message (some [5])] := by cases oc <;> decide +kernel
    simp [cstep, this]
  have h3 : (cstep (M := Unit) (Toy.env oc) f (Toy.csB Toy.b4) (.readBin (cipherOf Toy.cr Toy.key 0 [0, 5]))).1 =
      Toy.csB { Toy.b4 with nextNonceExpected := 1 } := by
    have : ((Toy.csB Toy.b4).readBin (Toy.env oc) (cipherOf Toy.cr Toy.key 0 [0, 5])).1 =
        Toy.csB { Toy.b4 with nextNonceExpected := 1 } := by cases oc <;> decide +kernel
    simp [cstep, this]
  refine ⟨h1, _, Toy.csB { Toy.b4 with nextNonceExpected := 1 },
    h3 ▸ CRun.call hr (.readBin (cipherOf Toy.cr Toy.key 0 [0, 5])), ?_, h2, ⟨[1], Toy.sink, ?_⟩, _, rfl⟩
  · rw [h2]; rfl
  · cases oc <;> decide +kernel

/-- A toy layer that fails on a second CONNECT, and one that survives an ACK for somebody else: the hypotheses of C56
hold. -/
example (oc : Bool) : Toy.CReach Unit (Toy.env oc) f Toy.cstB (Toy.csB Toy.b4) ∧
    ((Toy.csB Toy.b4).readBin (Toy.env oc) Toy.cconA).2 = .err (.recvInvalidMsg .unexpectedConnectMsg) ∧
    nonFatalBin (.recvInvalidMsg .unexpectedConnectMsg) = false ∧
    ((Toy.csB Toy.b3).readBin (Toy.env oc) Toy.cackB).2 = .err (.recvInvalidMsg .invalidChallenge) ∧
    nonFatalBin (.recvInvalidMsg .invalidChallenge) = true :=
  ⟨Toy.creach_b4 Unit f oc, by cases oc <;> decide +kernel, rfl, by cases oc <;> decide +kernel, rfl⟩

end
end Pkstl
