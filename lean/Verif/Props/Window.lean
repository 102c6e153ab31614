import Verif.Lemmas.WindowSpec
import Verif.Lemmas.WriteEval
import Verif.Props.Codec
import Verif.Props.Auth
import Verif.Spec.ToyHistory
import Mathlib.Data.List.TakeWhile
/- C17–C20, C22, C23: delivery of user messages. -/
namespace Pkstl
open Spec

section
variable {env : Env} {st : Start} {h : List Event} {s : Layer}

theorem cipherOf_inj {cr : Crypto} (law : cr.Lawful) {k : SecretKey} {n n' : Nat} {p p' : Bytes}
    (hn : n < 2 ^ 64) (hn' : n' < 2 ^ 64) (he : cipherOf cr k n p = cipherOf cr k n' p') : n = n' ∧ p = p' := by
  have h1 := decrypt_aeadSeal (env := ⟨cr, true⟩) law k (userPlain cr n p)
  have h2 := decrypt_aeadSeal (env := ⟨cr, true⟩) law k (userPlain cr n' p')
  rw [cipherOf_eq, cipherOf_eq] at he
  dsimp only at h1 h2
  rw [he, h2] at h1
  simp only [Res.ok.injEq, userPlain] at h1
  obtain ⟨h3, -⟩ := List.append_inj' h1 (by rw [law.sha256_length, law.sha256_length])
  obtain ⟨h4, h5⟩ := frames_injective.2.2.1 n' n p' p hn' hn h3
  exact ⟨h4.symm, h5.symm⟩

/-- **C06, user messages.** Two successful calls of `write_message` under the same session key that add the same bytes to
their streams have written the same payload with the same number. -/
theorem C06_user (law : env.cr.Lawful) {st' : Start} {h' : List Event} {s1 t t1 : Layer} (hr : Run env st h s)
    (hr' : Run env st' h' t) (hk : s.secret = t.secret) {d d' m : Bytes} {w w1 v v1 : BufW} (hw : 16 < w.cap)
    (hv : 16 < v.cap) (hs : s.writeMessage env d w = (s1, w1, .ok ())) (ht : t.writeMessage env d' v = (t1, v1, .ok ()))
    (hm : w1.stream = w.stream ++ m) (hm' : v1.stream = v.stream ++ m) : s.nextNonceSent = t.nextNonceSent ∧ d = d' := by
  obtain ⟨k, h1, h2⟩ := C04_layout_user law hs hw
  obtain ⟨k', h3, h4⟩ := C04_layout_user law ht hv
  rw [hm, List.append_cancel_left_eq] at h2
  rw [hm', List.append_cancel_left_eq] at h4
  rw [hk, h3, Option.some.injEq] at h1
  subst h1
  exact cipherOf_inj (k := k') law (Wf.of_run hr).sent (Wf.of_run hr').sent (h2.symm.trans h4)

/-- **C17.** The user messages delivered in a history can be listed, call by call, with sequence numbers
that are pairwise different; every one of them was received as the ciphertext of its number and payload
under the session key, and a message delivered by `read` is the one `read` was given. -/
theorem C17_at_most_once (hr : Run env st h s)
    (hb : env.overflowChecks = true ∨ (inputs h).length < 2 ^ 64) :
    ∃ Ls, List.Forall₂ (Carries env.cr s.secret) h Ls ∧ (Ls.flatten.map Prod.fst).Nodup ∧
      ∀ x ∈ Ls.flatten, ∃ k, s.secret = some k ∧ cipherOf env.cr k x.1 x.2 ∈ inputs h := by
  obtain ⟨-, Ls, ht⟩ := used_le hr hb
  exact ⟨Ls, ht.account, ht.acc.nodup, ht.origin⟩

theorem forall₂_split {α β : Type} {R : α → β → Prop} {a b : List α} {x : α} {Ls : List β}
    (hf : List.Forall₂ R (a ++ x :: b) Ls) :
    ∃ la lx lb, Ls = la ++ lx :: lb ∧ R x lx ∧ List.Forall₂ R b lb := by
  induction a generalizing Ls with
  | nil =>
    cases hf with
    | cons h1 h2 => exact ⟨[], _, _, rfl, h1, h2⟩
  | cons y a ih =>
    cases hf with
    | cons h1 h2 =>
      obtain ⟨la, lx, lb, rfl, h3, h4⟩ := ih h2
      exact ⟨_ :: la, lx, lb, rfl, h3, h4⟩

theorem carries_read {cr : Crypto} {sec : Option SecretKey} {inc : Bytes} {p : Option Bytes} {l : List (Nat × Bytes)}
    (hc : Carries cr sec (.read inc (.ok (some (.message p)))) l) :
    ∃ k n q, l = [(n, q)] ∧ p = present q ∧ n < 2 ^ 64 ∧ sec = some k ∧ inc = cipherOf cr k n q := by
  obtain ⟨h1, h2, h3⟩ := hc
  rcases l with _ | ⟨⟨n, q⟩, _ | ⟨y, l⟩⟩
  · simp [Event.delivers, userPayloads] at h1
  · obtain ⟨k, h4, h5⟩ := h3 inc _ rfl (n, q) (by simp)
    refine ⟨k, n, q, rfl, ?_, h2 (n, q) (by simp), h4, h5⟩
    simpa [Event.delivers, userPayloads] using h1
  · simp [Event.delivers, userPayloads] at h1

/-- **C17.** The same ciphertext is never delivered twice by `read`. -/
theorem C17_no_replay (law : env.cr.Lawful) (hr : Run env st h s)
    (hb : env.overflowChecks = true ∨ (inputs h).length < 2 ^ 64) {h1 h2 h3 : List Event} {inc : Bytes}
    {p q : Option Bytes}
    (he : h = h1 ++ .read inc (.ok (some (.message p))) :: (h2 ++ .read inc (.ok (some (.message q))) :: h3)) :
    False := by
  obtain ⟨Ls, ha, hn, -⟩ := C17_at_most_once hr hb
  rw [he] at ha
  obtain ⟨la, l1, lb, rfl, c1, hb1⟩ := forall₂_split ha
  obtain ⟨lc, l2, ld, rfl, c2, -⟩ := forall₂_split hb1
  obtain ⟨k, n1, q1, rfl, -, hn1, hk, e1⟩ := carries_read c1
  obtain ⟨k', n2, q2, rfl, -, hn2, hk', e2⟩ := carries_read c2
  rw [hk] at hk'
  simp only [Option.some.injEq] at hk'
  subst hk'
  obtain ⟨rfl, -⟩ := cipherOf_inj law hn1 hn2 (e1.symm.trans e2)
  simp only [List.flatten_append, List.flatten_cons, List.map_append, List.map_cons, List.map_nil,
    List.singleton_append] at hn
  have := (List.nodup_append.mp hn).2.1
  rw [List.nodup_cons] at this
  exact this.1 (by simp)

theorem account_payloads {cr : Crypto} {sec : Option SecretKey} {Ls : List (List (Nat × Bytes))}
    (ha : List.Forall₂ (Carries cr sec) h Ls) :
    userPayloads (deliveries h) = Ls.flatten.map fun x => present x.2 := by
  induction ha with
  | nil => rfl
  | @cons e l h Ls h1 _ ih =>
    have : deliveries (e :: h) = e.delivers ++ deliveries h := by simp [deliveries]
    rw [this, userPayloads_append, ih, h1.1]
    simp

theorem Track.knows {Ls : List (List (Nat × Bytes))} (ht : Track env h s Ls) (hw : WinOk s)
    (hreg : ∀ e ∈ h, e.regular) (hb : s.used + 1 < u64Size) : Knows s (Ls.flatten.map Prod.fst) := by
  refine ⟨ht.acc.nodup, fun m => ⟨fun hm => ?_, fun hm => ?_⟩⟩
  · obtain ⟨x, h1, h2⟩ := ht.regular hreg m hm
    exact List.mem_map.mpr ⟨x, h1, h2⟩
  · obtain ⟨x, h1, h2⟩ := List.mem_map.mp hm
    rcases ht.acc.seen with h3 | ⟨-, h3⟩
    · rw [← h2]; exact h3 x h1
    · unfold Layer.used at hb
      omega

/-- Toy party B delivers the user message number 3, which it is given twice; the second time is refused. -/
example (oc : Bool) : ∃ h s r, Run (Toy.env oc) Toy.stB
    (h ++ [.read (cipherOf Toy.cr Toy.key 3 [5]) (.ok (some (.message (some [5])))),
      .read (cipherOf Toy.cr Toy.key 3 [5]) r]) s ∧ r = .err (.recvInvalidMsg .invalidNonce) ∧
    (inputs h).length = 2 := by
  obtain ⟨h, hr, -, -, hi, -⟩ := Toy.hist_b4 oc
  have r2 := (hr.call (.read (cipherOf Toy.cr Toy.key 3 [5]))).call (.read (cipherOf Toy.cr Toy.key 3 [5]))
  rw [List.append_assoc] at r2
  have e1 : (step (Toy.env oc) Toy.b4 (.read (cipherOf Toy.cr Toy.key 3 [5]))).2 =
      .read (cipherOf Toy.cr Toy.key 3 [5]) (.ok (some (.message (some [5])))) := by cases oc <;> decide +kernel
  have e2 : (step (Toy.env oc) (step (Toy.env oc) Toy.b4 (.read (cipherOf Toy.cr Toy.key 3 [5]))).1
      (.read (cipherOf Toy.cr Toy.key 3 [5]))).2 =
      .read (cipherOf Toy.cr Toy.key 3 [5]) (.err (.recvInvalidMsg .invalidNonce)) := by
    cases oc <;> decide +kernel
  rw [e1, e2] at r2
  exact ⟨h, _, _, r2, rfl, hi⟩

/-- **C18.** On a negotiated layer an authentic user message is delivered exactly if its number is
deliverable after the numbers delivered so far: it has not been delivered, and it is the smallest
undelivered number or fewer than 10000 numbers wait for a smaller one.  A replay is refused without any
effect; an undeliverable new number makes the layer fail. -/
theorem C18_window (law : env.cr.Lawful) (hr : Run env st h s) (hreg : ∀ e ∈ h, e.regular)
    (hb : (inputs h).length + 1 < 2 ^ 64) (hs : s.status = .success) {k : SecretKey} (hk : s.secret = some k)
    (hks : ¬ ∀ i < 4, env.cr.keystream k.key k.nonce i = 0) :
    ∃ Ls, List.Forall₂ (Carries env.cr s.secret) h Ls ∧ ∀ n p, n < 2 ^ 64 → 26 + p.length < 2 ^ 64 →
      ((s.read env (cipherOf env.cr k n p)).2 = .ok (some (.message (present p))) ↔
        Deliverable (Ls.flatten.map Prod.fst) n) ∧
      (n ∈ Ls.flatten.map Prod.fst →
        s.read env (cipherOf env.cr k n p) = (s, .err (.recvInvalidMsg .invalidNonce))) ∧
      (n ∉ Ls.flatten.map Prod.fst → ¬ Deliverable (Ls.flatten.map Prod.fst) n →
        s.read env (cipherOf env.cr k n p) = ({ s with status := .fail }, .err .tooManyUnorderedMsgs)) := by
  obtain ⟨hu, Ls, ht⟩ := used_le hr (.inr (by unfold u64Size; omega))
  have hw := (Wf.of_run hr).win
  have hD := ht.knows hw hreg (by unfold u64Size; omega)
  have hc := hD.card hw
  refine ⟨Ls, ht.account, fun n p hn hlen => ?_⟩
  obtain ⟨a1, a2, a3⟩ := read_user_window law hn hlen hks hk hs hw hD
    (by unfold Layer.used at hu; unfold u64Size; omega)
  refine ⟨⟨fun hrd => ?_, fun hd => ?_⟩, a2, a3⟩
  · by_contra hd
    by_cases hm : n ∈ Ls.flatten.map Prod.fst
    · rw [a2 hm] at hrd; simp at hrd
    · rw [a3 hm hd] at hrd; simp at hrd
  · obtain ⟨e, O, h1, -⟩ := a1 hd
    rw [h1]

/-- Toy party B is negotiated and knows no number yet. -/
example (oc : Bool) : ∃ h, Run (Toy.env oc) Toy.stB h Toy.b4 ∧ (∀ e ∈ h, e.regular) ∧
    (inputs h).length + 1 < 2 ^ 64 ∧ Toy.b4.status = .success ∧ Toy.b4.secret = some Toy.key ∧
    (¬ ∀ i < 4, Toy.cr.keystream Toy.key.key Toy.key.nonce i = 0) ∧ userPayloads (deliveries h) = [] ∧
    Deliverable [] 7 ∧ ¬ Deliverable [0, 7] 7 := by
  obtain ⟨h, hr, h1, h2, h3, -⟩ := Toy.hist_b4 oc
  exact ⟨h, hr, h1, by omega, rfl, rfl, Toy.key_stream, h2, by decide, by decide⟩

/-- Reading a sequence of authentic messages. -/
theorem readAll_flow (law : env.cr.Lawful) {k : SecretKey} (hks : ¬ ∀ i < 4, env.cr.keystream k.key k.nonce i = 0)
    (l : List (Nat × Bytes)) {s : Layer} {D : List Nat} (hk : s.secret = some k) (hs : s.status = .success)
    (hw : WinOk s) (hD : Knows s D)
    (hl : ∀ x ∈ l, x.1 < 2 ^ 64 ∧ 26 + x.2.length < 2 ^ 64) (hroom : D.length + l.length < u64Size) :
    (readAll env s (l.map fun x => cipherOf env.cr k x.1 x.2)).2 =
        l.map (fun x => .ok (some (.message (present x.2)))) ↔ Flow D (l.map Prod.fst) := by
  induction l generalizing s D with
  | nil => simp [readAll, Flow]
  | cons x l ih =>
    have hx := hl x (by simp)
    rw [List.length_cons] at hroom
    rcases Nat.lt_or_ge (D.length + 1) u64Size with hroom' | hroom'
    swap
    · omega
    obtain ⟨a1, a2, a3⟩ := read_user_window law hx.1 hx.2 hks hk hs hw hD hroom'
    simp only [List.map_cons, readAll, Flow, List.cons.injEq]
    by_cases hd : Deliverable D x.1
    · obtain ⟨e, O, b1, b2, b3⟩ := a1 hd
      rw [b1]
      simp only [hd, true_and]
      exact ih (s := { s with nextNonceExpected := e, orphanNonces := O }) hk hs b2 b3
        (fun y hy => hl y (by simp [hy])) (by simp; omega)
    · simp only [hd, false_and, iff_false, not_and]
      intro hrd
      exfalso
      by_cases hm : x.1 ∈ D
      · rw [a2 hm] at hrd; simp at hrd
      · rw [a3 hm hd] at hrd; simp at hrd

/-- The state after a sequence that flows through. -/
theorem readAll_state (law : env.cr.Lawful) {k : SecretKey} (hks : ¬ ∀ i < 4, env.cr.keystream k.key k.nonce i = 0)
    (l : List (Nat × Bytes)) {s : Layer} {D : List Nat} (hk : s.secret = some k) (hs : s.status = .success)
    (hw : WinOk s) (hD : Knows s D)
    (hl : ∀ x ∈ l, x.1 < 2 ^ 64 ∧ 26 + x.2.length < 2 ^ 64) (hroom : D.length + l.length < u64Size)
    (hf : Flow D (l.map Prod.fst)) :
    ∃ e O, (readAll env s (l.map fun x => cipherOf env.cr k x.1 x.2)).1 =
        { s with nextNonceExpected := e, orphanNonces := O } ∧
      WinOk { s with nextNonceExpected := e, orphanNonces := O } ∧
      Knows { s with nextNonceExpected := e, orphanNonces := O } (D ++ l.map Prod.fst) := by
  induction l generalizing s D with
  | nil => simp only [List.map_nil, readAll, List.append_nil]; exact ⟨_, _, rfl, hw, hD⟩
  | cons x l ih =>
    have hx := hl x (by simp)
    rw [List.length_cons] at hroom
    obtain ⟨a1, -, -⟩ := read_user_window (env := env) law hx.1 hx.2 hks hk hs hw hD (by omega)
    simp only [List.map_cons, Flow] at hf
    obtain ⟨e, O, b1, b2, b3⟩ := a1 hf.1
    obtain ⟨e', O', c1, c2, c3⟩ := ih (s := { s with nextNonceExpected := e, orphanNonces := O }) hk hs b2 b3
      (fun y hy => hl y (by simp [hy])) (by simp; omega) hf.2
    refine ⟨e', O', ?_, c2, by simpa using c3⟩
    simp only [List.map_cons, readAll]
    rw [b1]
    exact c1

/-- Reading several inputs is a history. -/
theorem readAll_run (hr : Run env st h s) (l : List Bytes) :
    Run env st (h ++ List.zipWith Event.read l (readAll env s l).2) (readAll env s l).1 := by
  induction l generalizing h s with
  | nil => simpa [readAll] using hr
  | cons b l ih =>
    have := ih (hr.call (.read b))
    simpa [readAll, step] using this

/-- **C18.** A sequence of different authentic messages that meets a negotiated layer before any other user
message is delivered completely if and only if no number is overtaken by more than 10000 larger ones. -/
theorem C18_sequence (law : env.cr.Lawful) (hr : Run env st h s) (hreg : ∀ e ∈ h, e.regular)
    (hno : userPayloads (deliveries h) = []) (hs : s.status = .success) {k : SecretKey} (hk : s.secret = some k)
    (hks : ¬ ∀ i < 4, env.cr.keystream k.key k.nonce i = 0)
    (l : List (Nat × Bytes)) (hl : ∀ x ∈ l, x.1 < 2 ^ 64 ∧ 26 + x.2.length < 2 ^ 64)
    (hnd : (l.map Prod.fst).Nodup) (hb : (inputs h).length + l.length + 1 < 2 ^ 64) :
    (readAll env s (l.map fun x => cipherOf env.cr k x.1 x.2)).2 =
        l.map (fun x => .ok (some (.message (present x.2)))) ↔
      ∀ m, (overtakers (l.map Prod.fst) m).length ≤ 10000 := by
  obtain ⟨hu, Ls, ht⟩ := used_le hr (.inr (by unfold u64Size; omega))
  have hw := (Wf.of_run hr).win
  have hD := ht.knows hw hreg (by unfold u64Size; omega)
  have hnil : Ls.flatten = [] := by
    have := account_payloads ht.account
    rw [hno] at this
    exact List.map_eq_nil_iff.mp this.symm
  rw [hnil] at hD
  rw [readAll_flow law hks l hk hs hw hD hl (by simp [u64Size]; omega)]
  have := flow_iff [] (l.map Prod.fst) (by simpa using hnd) (by simp)
  simpa using this

/-- **C18.** Hence any permutation of the first messages, up to 10001 of them, is delivered completely. -/
theorem C18_permutation (law : env.cr.Lawful) (hr : Run env st h s) (hreg : ∀ e ∈ h, e.regular)
    (hno : userPayloads (deliveries h) = []) (hs : s.status = .success) {k : SecretKey} (hk : s.secret = some k)
    (hks : ¬ ∀ i < 4, env.cr.keystream k.key k.nonce i = 0)
    (l : List (Nat × Bytes)) (hl : ∀ x ∈ l, 26 + x.2.length < 2 ^ 64)
    (hp : (l.map Prod.fst).Perm (List.range l.length)) (hlen : l.length ≤ 10001)
    (hb : (inputs h).length + 10002 < 2 ^ 64) :
    (readAll env s (l.map fun x => cipherOf env.cr k x.1 x.2)).2 =
        l.map (fun x => .ok (some (.message (present x.2)))) := by
  have hlt : ∀ x ∈ l, x.1 < l.length := by
    intro x hx
    have := hp.mem_iff.mp (List.mem_map.mpr ⟨x, hx, rfl⟩)
    simpa using this
  rw [C18_sequence law hr hreg hno hs hk hks l (fun x hx => ⟨by have := hlt x hx; omega, hl x hx⟩)
    (hp.nodup_iff.mpr List.nodup_range) (by omega)]
  intro m
  -- the number 0, or any number, is not larger than itself
  have h1 : (overtakers (l.map Prod.fst) m).length ≤ ((l.map Prod.fst).filter (m < ·)).length := by
    unfold overtakers
    apply List.Sublist.length_le
    exact (List.takeWhile_sublist _).filter _
  have h2 : ((l.map Prod.fst).filter (m < ·)).length = ((List.range l.length).filter (m < ·)).length :=
    (hp.filter _).length_eq
  have h3 : ((List.range l.length).filter (m < ·)).length ≤ l.length - 1 := by
    rcases Nat.eq_zero_or_pos l.length with h0 | h0
    · rw [h0]; simp
    · obtain ⟨j, hj⟩ : ∃ j, l.length = j + 1 := ⟨l.length - 1, by omega⟩
      rw [hj, List.range_succ_eq_map]
      simp only [List.filter_cons, Nat.not_lt_zero, decide_false, Bool.false_eq_true, if_false]
      exact (List.length_filter_le _ _).trans (by simp)
  omega

/-- Two messages in reverse order on toy party B. -/
example (oc : Bool) : (readAll (Toy.env oc) Toy.b4 ([(1, [5]), (0, [6])].map fun x =>
    cipherOf Toy.cr Toy.key x.1 x.2)).2 = [.ok (some (.message (some [5]))), .ok (some (.message (some [6])))] := by
  obtain ⟨h, hr, h1, h2, h3, -⟩ := Toy.hist_b4 oc
  exact C18_permutation (env := Toy.env oc) Toy.lawful hr h1 h2 rfl rfl Toy.key_stream [(1, [5]), (0, [6])]
    (by decide) (by decide) (by decide) (by omega)

/-- Number 0 is overtaken by 10001 messages: the sequence does not flow through. -/
example (oc : Bool) : (readAll (Toy.env oc) Toy.b4 (((List.range 10001).map fun i => (i + 1, ([] : Bytes))).map
      fun x => cipherOf Toy.cr Toy.key x.1 x.2)).2 ≠
    ((List.range 10001).map fun i => (i + 1, ([] : Bytes))).map fun x => .ok (some (.message (present x.2))) := by
  obtain ⟨h, hr, h1, h2, h3, -⟩ := Toy.hist_b4 oc
  have hfst : ((List.range 10001).map fun i => (i + 1, ([] : Bytes))).map Prod.fst =
      (List.range 10001).map (· + 1) := by simp
  intro hc
  have := (C18_sequence (env := Toy.env oc) Toy.lawful hr h1 h2 rfl rfl Toy.key_stream _
    (by intro x hx; simp at hx; obtain ⟨i, hi, rfl⟩ := hx; simp; omega)
    (by rw [hfst]; exact List.nodup_range.map fun _ _ => by simp) (by simp; omega)).mp hc 0
  rw [hfst] at this
  have h4 : overtakers ((List.range 10001).map (· + 1)) 0 = (List.range 10001).map (· + 1) := by
    unfold overtakers
    rw [List.takeWhile_eq_self_iff.mpr (by intro x hx; simp at hx; obtain ⟨i, -, rfl⟩ := hx; simp)]
    rw [List.filter_eq_self]
    intro x hx; simp at hx; obtain ⟨i, -, rfl⟩ := hx; simp
  rw [h4] at this
  simp at this

/-- **C19.** The replay bookkeeping of a reachable layer holds at most 10000 numbers, all of them above the
smallest undelivered number. -/
theorem C19_bounded (hr : Run env st h s) :
    s.orphanNonces.card ≤ 10000 ∧ ∀ m ∈ s.orphanNonces, s.nextNonceExpected < m :=
  ⟨(Wf.of_run hr).win.card, fun m hm => ((Wf.of_run hr).win.orph m hm).1⟩

/-- **C19.** `read` reports `TooManyUnorderedMsgs` only for a new number on a negotiated layer whose
bookkeeping is full, and then the layer has failed. -/
theorem C19_overflow (hr : Run env st h s) {inc : Bytes}
    (he : (s.read env inc).2 = .err .tooManyUnorderedMsgs) :
    s.status = .success ∧ s.orphanNonces.card = 10000 ∧ (s.read env inc).1 = { s with status := .fail } ∧
    ∃ k x n, s.secret = some k ∧ inc = aeadSeal env.cr k x ∧ (x.drop 18).take 8 = be64 n ∧ n < 2 ^ 64 ∧
      s.nextNonceExpected < n ∧ n ∉ s.orphanNonces := by
  have hw := (Wf.of_run hr).win
  have hcase := readInner_case env s inc true
  change (s.readInner env inc true).2 = _ at he
  rw [he] at hcase
  show _ ∧ _ ∧ (s.readInner env inc true).1 = _ ∧ _
  generalize (s.readInner env inc true).1 = s' at hcase
  generalize hrr : (Res.err Error.tooManyUnorderedMsgs : Res (Option Message)) = r at hcase
  cases hcase with
  | @userNonceErr d n _ _ hp hh hn hs hl hv hu =>
    simp only [Res.err.injEq] at hrr
    subst hrr
    have hlt := user_number_lt hp hh
    rcases updateNonces_spec env s _ hw hlt hn with ⟨O', n', h1, -⟩ | ⟨-, h1, -⟩ | ⟨-, h1, -⟩ | ⟨h0, h00, h1⟩
    · rw [h1] at hu; simp at hu
    · rw [h1] at hu; simp at hu
    · rw [h1] at hu; simp at hu
    · rw [h1] at hu
      simp only [Prod.mk.injEq, and_true] at hu
      obtain ⟨k, hk, hinc, -, hpc⟩ := user_sealed hp hh
      refine ⟨hs, h00, hu.symm, k, _, n, hk, hinc, ?_, hlt, ?_, fun h => hn (.inr h)⟩
      · obtain ⟨-, -, -, -, lb, rest, hlb, -, hx⟩ := parseClear_iff.mp hpc
        rw [hh] at hx
        rw [hx]
        simp only [hdrBytes]
        rw [show [0xE2, 0xC2, 0xE2, 0xD2] ++ ([0, 0, 0, 1] ++ (lb ++ ([0, 0] ++ be64 n ++ rest)))
          = ([0xE2, 0xC2, 0xE2, 0xD2] ++ [0, 0, 0, 1] ++ lb ++ [0, 0]) ++ (be64 n ++ rest) by simp]
        rw [List.drop_left' (by simp [hlb])]
        rw [List.take_left' (by simp [be64])]
      · push Not at hn
        omega
  | parseErr hp =>
    exfalso
    simp only [Res.err.injEq] at hrr
    subst hrr
    rcases readerRead_err hp with h | ⟨i, -, h⟩ <;> simp at h
  | connectLate => simp only [Res.err.injEq] at hrr; subst hrr; split at * <;> simp_all
  | ackLate => simp only [Res.err.injEq] at hrr; subst hrr; split at * <;> simp_all
  | userLate => simp only [Res.err.injEq] at hrr; subst hrr; split at * <;> simp_all
  | connectNoKp => split at hrr <;> first | exact absurd hrr.symm getMessage_ne_err | simp at hrr
  | connectOk => exact absurd hrr.symm getMessage_ne_err
  | ackOk => exact absurd hrr.symm getMessage_ne_err
  | userOk => exact absurd hrr.symm getMessage_ne_err
  | _ => simp at hrr

/-- Toy party B after the numbers `1 … N`. -/
theorem toy_filled (oc : Bool) {N : Nat} (hN : N ≤ 10000) :
    ∃ e O, (readAll (Toy.env oc) Toy.b4 (((List.range N).map fun i => (i + 1, ([] : Bytes))).map
      fun x => cipherOf Toy.cr Toy.key x.1 x.2)).1 = { Toy.b4 with nextNonceExpected := e, orphanNonces := O } ∧
      WinOk { Toy.b4 with nextNonceExpected := e, orphanNonces := O } ∧
      Knows { Toy.b4 with nextNonceExpected := e, orphanNonces := O } ((List.range N).map (· + 1)) := by
  obtain ⟨h, hr, -⟩ := Toy.hist_b4 oc
  have hfst : ((List.range N).map fun i => (i + 1, ([] : Bytes))).map Prod.fst =
      (List.range N).map (· + 1) := by simp
  have hnd : ((List.range N).map (· + 1)).Nodup := List.nodup_range.map fun _ _ => by simp
  have := readAll_state (env := Toy.env oc) Toy.lawful Toy.key_stream
    ((List.range N).map fun i => (i + 1, ([] : Bytes))) (s := Toy.b4) (D := []) rfl rfl (Wf.of_run hr).win
    ⟨by simp, by intro m; simp [Layer.seen, Toy.b4, Toy.met, Toy.layer0]⟩
    (by intro x hx; simp at hx; obtain ⟨i, hi, rfl⟩ := hx; simp; omega) (by simp [u64Size]; omega)
    ((flow_iff _ _ (by rw [hfst]; simpa using hnd) (by simp)).mpr (by
      intro m _
      rw [hfst]
      have : (overtakers ([] ++ (List.range N).map (· + 1)) m).length ≤ ((List.range N).map (· + 1)).length := by
        unfold overtakers
        exact (List.length_filter_le _ _).trans ((List.takeWhile_sublist _).length_le)
      simp only [List.length_map, List.length_range] at this
      omega))
  rw [hfst, List.nil_append] at this
  exact this

theorem toy_overflow (oc : Bool) {N : Nat} (hN : N = 10000) : ∃ h s inc, Run (Toy.env oc) Toy.stB h s ∧
    (s.read (Toy.env oc) inc).2 = .err .tooManyUnorderedMsgs := by
  obtain ⟨h, hr, -⟩ := Toy.hist_b4 oc
  obtain ⟨e, O, g1, g2, g3⟩ := toy_filled oc (N := N) (by omega)
  have h0 : 0 ∉ (List.range N).map (· + 1) := by simp
  have hp : (pending ((List.range N).map (· + 1))).length = N := by
    rw [pending_eq h0 (by simp)]
    rw [List.filter_eq_self.mpr (by intro x hx; simp at hx; obtain ⟨i, -, rfl⟩ := hx; simp)]
    simp
  obtain ⟨-, -, a3⟩ := read_user_window (env := Toy.env oc) Toy.lawful (n := N + 1) (p := [])
    (by unfold u64Size; omega) (by decide)
    Toy.key_stream (s := { Toy.b4 with nextNonceExpected := e, orphanNonces := O }) rfl rfl g2 g3
    (by simp [u64Size]; omega)
  refine ⟨_, _, cipherOf Toy.cr Toy.key (N + 1) [], readAll_run hr (((List.range N).map fun i => (i + 1, ([] : Bytes))).map
    fun x => cipherOf Toy.cr Toy.key x.1 x.2), ?_⟩
  rw [g1]
  refine congrArg Prod.snd (a3 (by simp) ?_)
  rintro ⟨-, h | h⟩
  · exact h0 (h 0 (by omega))
  · omega

/-- The bookkeeping of toy party B can be filled up, and the next message then fails the layer. -/
example (oc : Bool) : ∃ h s inc, Run (Toy.env oc) Toy.stB h s ∧
    (s.read (Toy.env oc) inc).2 = .err .tooManyUnorderedMsgs := toy_overflow oc rfl

theorem sent_eq (hr : Run env st h s) : s.nextNonceSent = h.countP Event.writes % 2 ^ 64 := by
  induction hr with
  | init h =>
    simp only [Layer.create, EphemeralKeyPair.generate, Res.bind_ok, Res.ok.injEq] at h
    subst h
    rfl
  | @cloned h s c hr hc ih =>
    obtain ⟨-, rfl⟩ := tryClone_ok hc
    simpa [Event.writes] using ih
  | @call h s hr op ih =>
    have hw := Wf.of_run hr
    rw [List.countP_append]
    have same : (step env s op).1.nextNonceSent = s.nextNonceSent → (step env s op).2.writes = false →
        (step env s op).1.nextNonceSent =
          (h.countP Event.writes + [(step env s op).2].countP Event.writes) % 2 ^ 64 := by
      intro h1 h2
      rw [h1, ih]
      simp [h2]
    cases op with
    | read inc => exact same (readFrame env s inc true).sent rfl
    | takeAck =>
      refine same ?_ rfl
      rcases takeAck_cases env s with ⟨-, he⟩ | ⟨b, -, he⟩
      · simp only [step, he]
      · simp only [step, he]
        exact (readFrame env _ b true).sent
    | drain => exact same (drain_frame hw).sent rfl
    | connect pk d =>
      refine same ?_ rfl
      rcases createConnect_cases env s pk d with ⟨rem, -, he⟩ | ⟨-, he⟩ <;> simp only [step, he]
    | ack d =>
      refine same ?_ rfl
      rcases createAck_cases env s d with ⟨rem, -, he⟩ | ⟨-, he⟩ <;> simp only [step, he]
    | clone => exact same (by simp only [step, Layer.tryClone]; split <;> rfl) rfl
    | config c => exact same (by simp only [step, Layer.changeConfig]; split <;> rfl) rfl
    | write d w =>
      rcases writeMessage_cases env s d w with ⟨-, he⟩ | ⟨_, _, -, he⟩ | ⟨-, -, he⟩ |
          ⟨hs, k, hk, ⟨w', e, -, he⟩ | ⟨w', -, ⟨n, hn, he⟩ | ⟨-, he⟩⟩⟩
      all_goals try exact same (by simp only [step, he]) (by simp only [step, he]; rfl)
      simp only [step, he, List.countP_cons, List.countP_nil, Event.writes, if_true]
      have hlt := hw.sent
      unfold addU64 u64Size at *
      split at hn
      · simp only [Option.some.injEq] at hn; omega
      · split at hn
        · simp at hn
        · simp only [Option.some.injEq] at hn; omega

/-- **C20.** The `k`-th successful `write_message` in the history of a layer (counting from 0, along the
lineage of clones) appends to the stream exactly the ciphertext of number `k`; calls that did not return
`Ok` are not counted. -/
theorem C20_numbering (law : env.cr.Lawful) (hr : Run env st h s) {h1 h2 : List Event} {d : Bytes} {w w' : BufW}
    (he : h = h1 ++ .write d w w' (.ok ()) :: h2) (hcap : 16 < w.cap) :
    ∃ k, s.secret = some k ∧
      w'.stream = w.stream ++ cipherOf env.cr k (h1.countP Event.writes % 2 ^ 64) d := by
  obtain ⟨s1, s2, hr1, hs2, hr2, ⟨op, he1, he2⟩ | ⟨he1, -⟩⟩ := hr.at he
  swap
  · simp at he1
  cases op with
  | write d' v =>
    simp only [step, Event.write.injEq] at he1 he2
    obtain ⟨rfl, rfl, rfl, hok⟩ := he1
    have hsent := sent_eq hr1
    rcases writeMessage_cases env s1 d w with ⟨-, he⟩ | ⟨_, _, -, he⟩ | ⟨-, -, he⟩ |
        ⟨hs, k, hk, ⟨w', e, -, he⟩ | ⟨w', hen, ⟨n, hn, he⟩ | ⟨-, he⟩⟩⟩
    all_goals try (rw [he] at hok; simp at hok; done)
    refine ⟨k, (C14_secret_stable hr2 hs2).2 k ?_, ?_⟩
    · rw [he2, he]; exact hk
    · rw [he, cipherOf_eq, ← hsent]
      exact (encrypt_ok law hcap hen).1
  | _ => simp [step] at he1

/-- Toy party A writes two messages; the second one carries number 1. -/
example (oc : Bool) : ∃ h s w w', Run (Toy.env oc) Toy.stA (h ++ .write [1] Toy.sink w (.ok ()) ::
    [.write [2] w w' (.ok ())]) s ∧ 16 < w.cap ∧ h.countP Event.writes = 0 ∧
    (h ++ [.write [1] Toy.sink w (.ok ())]).countP Event.writes = 1 := by
  obtain ⟨h, hr, h1⟩ := Toy.hist_a4 oc
  obtain ⟨w, g1, -, g2, g3⟩ := writeMessage_good (env := Toy.env oc) Toy.lawful (s := Toy.a4) (k := Toy.key) [1]
    (w := Toy.sink) rfl rfl rfl (by decide) (by decide)
  obtain ⟨w', g4, -, -, -⟩ := writeMessage_good (env := Toy.env oc) Toy.lawful
    (s := { Toy.a4 with nextNonceSent := 1 }) (k := Toy.key) [2]
    (w := w) rfl rfl g2 (by rw [g3]; decide) (by decide)
  have r := (hr.call (.write [1] Toy.sink)).call (.write [2] w)
  simp only [step, g1] at r
  rw [show Toy.a4.nextNonceSent + 1 = 1 from rfl] at r
  simp only [g4] at r
  refine ⟨h, _, w, w', by simpa using r, by rw [g3]; decide, h1, by simp [h1, Event.writes]⟩

/-- **C20.** With overflow checks the count never reaches 2^64, so no number is used twice by successful
writes; without, the numbers start again after 2^64 messages. -/
theorem C20_no_repetition (hr : Run env st h s) (hoc : env.overflowChecks = true) :
    h.countP Event.writes < 2 ^ 64 := by
  have key : ∀ {h : List Event} {s : Layer}, Run env st h s → s.nextNonceSent = h.countP Event.writes := by
    intro h s hr
    induction hr with
    | init h =>
      simp only [Layer.create, EphemeralKeyPair.generate, Res.bind_ok, Res.ok.injEq] at h
      subst h
      rfl
    | @cloned h s c hr hc ih =>
      obtain ⟨-, rfl⟩ := tryClone_ok hc
      simpa [Event.writes] using ih
    | @call h s hr op ih =>
      have h1 := sent_eq (hr.call op)
      have h2 := (Wf.of_run hr).sent
      rw [List.countP_append] at h1 ⊢
      unfold u64Size at h2
      cases hwr : (step env s op).2.writes with
      | false =>
        simp only [List.countP_cons, List.countP_nil, hwr] at h1 ⊢
        simp at h1 ⊢
        omega
      | true =>
        simp only [List.countP_cons, List.countP_nil, hwr] at h1 ⊢
        simp at h1 ⊢
        cases op with
        | write d w =>
          rcases writeMessage_cases env s d w with ⟨-, he⟩ | ⟨_, _, -, he⟩ | ⟨-, -, he⟩ |
            ⟨hs, k, hk, ⟨w', e, -, he⟩ | ⟨w', hen, ⟨n, hn, he⟩ | ⟨-, he⟩⟩⟩
          all_goals try (simp [step, he, Event.writes] at hwr; done)
          simp only [step, he] at h1 ⊢
          unfold addU64 u64Size at hn
          rw [hoc] at hn
          split at hn
          · simp only [Option.some.injEq] at hn; omega
          · simp at hn
        | _ => simp [step, Event.writes] at hwr
  rw [← key hr]
  exact (Wf.of_run hr).sent

end
end Pkstl
