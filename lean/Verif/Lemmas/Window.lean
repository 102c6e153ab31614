import Verif.Lemmas.Delivered
/- Accepted user messages along a history: numbers, payloads, origins. -/
namespace Pkstl
open Spec

/-- A user message handed to the application. -/
abbrev msgOf (x : Nat × Bytes) : Message := .message (present x.2)

/-- The accepted messages `L` have different numbers that the window remembers. -/
structure Acc (env : Env) (s : Layer) (L : List (Nat × Bytes)) : Prop where
  nodup : (L.map Prod.fst).Nodup
  seen : (∀ x ∈ L, s.seen x.1) ∨ (env.overflowChecks = true ∧ s.nextNonceExpected = u64Size - 1)

/-- The number of consumed numbers. -/
def Layer.used (s : Layer) : Nat := s.nextNonceExpected + s.orphanNonces.card

section
variable {env : Env} {s : Layer} {L : List (Nat × Bytes)}

theorem Acc.congr {s' : Layer} (h : Acc env s L) (h1 : s'.nextNonceExpected = s.nextNonceExpected)
    (h2 : s'.orphanNonces = s.orphanNonces) : Acc env s' L :=
  ⟨h.nodup, by unfold Layer.seen; rw [h1, h2]; exact h.seen⟩

/-- Effect of the bookkeeping on the list of accepted messages. -/
theorem updateNonces_acc (hw : WinOk s) (ha : Acc env s L) {n : Nat} (hn : n < u64Size) (hf : ¬ s.seen n)
    (hnw : env.overflowChecks = true ∨ s.used + 1 < u64Size) :
    WinOk (s.updateNonces env n).1 ∧ Acc env (s.updateNonces env n).1 L ∧
    (s.updateNonces env n).1.used ≤ s.used + 1 ∧
    ((s.updateNonces env n).2 = .ok () →
      (∀ p, Acc env (s.updateNonces env n).1 (L ++ [(n, p)])) ∧
      (s.updateNonces env n).1.used = s.used + 1 ∧
      ∀ m, (s.updateNonces env n).1.seen m ↔ s.seen m ∨ m = n) ∧
    (∀ e, (s.updateNonces env n).2 = .err e → (s.updateNonces env n).1.nextNonceExpected = s.nextNonceExpected ∧
      (s.updateNonces env n).1.orphanNonces = s.orphanNonces) := by
  unfold Layer.used at *
  rcases updateNonces_spec env s n hw hn hf with ⟨O', n', h1, h2, h3, h4⟩ | ⟨h0, h1, h2, h3⟩ | ⟨h0, h1, h2, h3⟩ |
    ⟨h0, h00, h1⟩
  · rw [h1]
    have mono : ∀ m, s.seen m → m < n' ∨ m ∈ O' := fun m hm => (h3 m).mpr (.inl hm)
    have ha' : ∀ x ∈ L, s.seen x.1 := by
      rcases ha.seen with h | ⟨ho, he⟩
      · exact h
      · -- with an exhausted window nothing is accepted
        exfalso
        have hn' : n = s.nextNonceExpected := by
          unfold Layer.seen at hf; push Not at hf
          omega
        have : addU64 env.overflowChecks s.nextNonceExpected 1 = none := by
          rw [he, ho]; decide
        unfold Layer.updateNonces at h1
        rw [if_pos hn', this] at h1
        simp at h1
    refine ⟨h2, ⟨ha.nodup, .inl fun x hx => mono _ (ha' x hx)⟩, by simp only; omega, fun _ => ⟨fun p => ⟨?_, .inl ?_⟩, h4, h3⟩,
      by simp⟩
    · rw [List.map_append, List.nodup_append]
      refine ⟨ha.nodup, by simp, ?_⟩
      intro a hm b hb hab
      obtain ⟨x, hx, rfl⟩ := List.mem_map.mp hm
      simp only [List.map_cons, List.map_nil, List.mem_singleton] at hb
      rw [hb] at hab
      exact hf (hab ▸ ha' x hx)
    · intro x hx
      rcases List.mem_append.mp hx with hx | hx
      · exact mono _ (ha' x hx)
      · simp only [List.mem_singleton] at hx
        subst hx
        exact (h3 n).mpr (.inr rfl)
  · rw [h0] at hnw
    simp at hnw; omega
  · rw [h1]
    refine ⟨⟨by simp only [u64Size]; omega, by simp, by simp⟩, ⟨ha.nodup, .inr ⟨h0, rfl⟩⟩, ?_, by simp, by simp⟩
    simp only [Finset.card_empty]; omega
  · rw [h1]
    exact ⟨hw.congr rfl rfl, ha.congr rfl rfl, by simp, by simp, by simp⟩

/-- All outcomes of a user message. -/
theorem readUser_cases (env : Env) (s : Layer) (d : DecryptedIncomingData) (n : Nat) :
    (∃ t e, s.readUser env d n = ({ s with status := t }, .err e) ∧ (t = s.status ∨ t = .fail)) ∨
    (∃ p, s.readUser env d n = (s, .panic p)) ∨
    (s.status = .ongoing .connectMsgSent .ackMsgSent ∧
      s.readUser env d n = ({ s with tmpStack := s.tmpStack ++ [d.data] }, .ok none)) ∨
    (s.status = .success ∧ ¬ s.seen n ∧ s.readUser env d n =
      ((s.updateNonces env n).1, (s.updateNonces env n).2 >>= fun _ => Layer.getMessage d)) := by
  unfold Layer.readUser
  have hself : ∀ t, s.status = t → { s with status := t } = s := fun t h => by rw [← h]
  by_cases hns : n < s.nextNonceExpected ∨ n ∈ s.orphanNonces
  · left
    exact ⟨s.status, _, by rw [if_pos hns], .inl rfl⟩
  rw [if_neg hns]
  cases hs : s.status with
  | fail => left; exact ⟨.fail, _, rfl, .inl rfl⟩
  | ongoing loc rem =>
    by_cases hc : loc = .connectMsgSent ∧ rem = .ackMsgSent
    · obtain ⟨rfl, rfl⟩ := hc
      right; right; left
      refine ⟨rfl, ?_⟩
      simp only [Status.applyAction, and_self, if_true]
    · left
      refine ⟨.fail, .recvInvalidMsg .unexpectedMessage, ?_, .inr rfl⟩
      cases loc <;> cases rem <;> first | rfl | simp at hc
  | success =>
    have hself := hself _ hs
    simp only [Status.applyAction, hself, sliceTo, sliceFrom]
    by_cases hl : d.userMsgEnd ≤ d.data.length
    swap
    · right; left; exact ⟨.sliceIndex, by simp [hl]⟩
    simp only [hl, if_true]
    by_cases hv : d.data.drop d.userMsgEnd = env.cr.sha256 (d.data.take d.userMsgEnd)
    swap
    · left
      refine ⟨.success, .recvInvalidMsg .invalidHashOrSig, ?_, .inl rfl⟩
      simp only [hv, ne_eq, not_false_eq_true, if_true, hself]
    right; right; right
    refine ⟨trivial, hns, ?_⟩
    simp only [hv, ne_eq, not_true_eq_false, if_false]
    rcases s.updateNonces env n with ⟨s', _ | e | p⟩ <;> rfl

/-- Effect of a user message on the list of accepted messages. -/
theorem readUser_acc (hw : WinOk s) (ha : Acc env s L) {d : DecryptedIncomingData} {enc chk : Bool} {b : Bytes}
    {n : Nat} (hp : parseClear env enc b chk = .ok d) (hh : d.msgTypeHeaders = .userMsg n)
    (hnw : env.overflowChecks = true ∨ s.used + 1 < u64Size) :
    (∃ payload, (s.readUser env d n).2 = .ok (some (msgOf (n, payload))) ∧ b = userPlain env.cr n payload ∧
      n < u64Size ∧ ¬ s.seen n ∧ s.status = .success ∧ (s.readUser env d n).1.status = .success ∧
      Acc env (s.readUser env d n).1 (L ++ [(n, payload)]) ∧ (s.readUser env d n).1.used = s.used + 1 ∧
      WinOk (s.readUser env d n).1 ∧ (s.readUser env d n).1.tmpStack = s.tmpStack ∧
      ∀ m, (s.readUser env d n).1.seen m ↔ s.seen m ∨ m = n) ∨
    ((∀ m, (s.readUser env d n).2 ≠ .ok (some m)) ∧ Acc env (s.readUser env d n).1 L ∧
      (s.readUser env d n).1.used ≤ s.used + 1 ∧ WinOk (s.readUser env d n).1 ∧
      (s.readUser env d n).1.tmpStack.length + (s.readUser env d n).1.used ≤ s.tmpStack.length + s.used + 1 ∧
      ((s.readUser env d n).2 = .ok none → s.status = .ongoing .connectMsgSent .ackMsgSent ∧
        s.readUser env d n = ({ s with tmpStack := s.tmpStack ++ [b] }, .ok none)) ∧
      (∀ e, (s.readUser env d n).2 = .err e → ∀ m, (s.readUser env d n).1.seen m ↔ s.seen m)) := by
  have hd : d.data = b := (parseClear_iff.mp hp).1
  have hlt : n < u64Size := by
    have := (parseClear_iff.mp hp).2.1; rw [hh] at this; exact this
  by_cases hdel : ∃ m, (s.readUser env d n).2 = .ok (some m)
  · left
    obtain ⟨m, hm⟩ := hdel
    obtain ⟨payload, h1, h2, h3, h4, h5, h6⟩ := readUser_inv hp hh hm
    obtain ⟨a1, -, -, a4, -⟩ := updateNonces_acc hw ha h3 h2 hnw
    rw [h6] at a1 a4
    obtain ⟨a5, a6, a7⟩ := a4 rfl
    obtain ⟨O', n', st, hf1, -, hf2, -⟩ := updateNonces_frame env s n
    rw [h6] at hf1 hf2
    refine ⟨payload, by rw [hm, h5], h4, h3, h2, h1, ?_, a5 payload, a6, a1, ?_, a7⟩
    · rw [hf1]; exact (hf2 rfl).trans h1
    · rw [hf1]
  · right
    push Not at hdel
    refine ⟨hdel, ?_⟩
    rcases readUser_cases env s d n with ⟨t, e, he, -⟩ | ⟨p, he⟩ | ⟨hs, he⟩ | ⟨hs, hns, he⟩
    · rw [he]
      have hu : Layer.used { s with status := t } = s.used := rfl
      exact ⟨ha.congr rfl rfl, by rw [hu]; omega, hw.congr rfl rfl, by rw [hu]; dsimp only; omega, by simp,
        fun _ _ m => Iff.rfl⟩
    · rw [he]
      exact ⟨ha, by dsimp only; omega, hw, by dsimp only; omega, by simp, by simp⟩
    · rw [he, hd]
      have hu : Layer.used { s with tmpStack := s.tmpStack ++ [b] } = s.used := rfl
      refine ⟨ha.congr rfl rfl, by rw [hu]; omega, hw.congr rfl rfl, ?_, fun _ => ⟨hs, rfl⟩, by simp⟩
      rw [hu]; simp; omega
    · obtain ⟨a1, a2, a3, a4, a5⟩ := updateNonces_acc (n := n) hw ha hlt hns hnw
      obtain ⟨O', n', st, hf1, -⟩ := updateNonces_frame env s n
      have hstk : (s.updateNonces env n).1.tmpStack = s.tmpStack := by rw [hf1]
      rw [he]
      refine ⟨a2, a3, a1, by dsimp only; rw [hstk]; omega, ?_, ?_⟩
      · intro hg
        dsimp only at hg
        rcases hu : (s.updateNonces env n).2 with u | e | p <;> rw [hu] at hg
        · exact absurd hg getMessage_ne_none
        · simp at hg
        · simp at hg
      · intro e hg m
        dsimp only at hg ⊢
        rcases hu : (s.updateNonces env n).2 with u | e' | p <;> rw [hu] at hg
        · exact absurd hg getMessage_ne_err
        · obtain ⟨h1, h2⟩ := a5 e' hu
          unfold Layer.seen; rw [h1, h2]
        · simp at hg

/-- Effect of draining on the list of accepted messages. -/
theorem drainLoop_acc (bs : List Bytes) (ms : List Message) (hb : Stackable env bs) (hw : WinOk s)
    (ha : Acc env s L)
    (hnw : env.overflowChecks = true ∨ s.used + bs.length < u64Size) :
    WinOk (s.drainLoop env bs ms).1 ∧
    (s.drainLoop env bs ms).1.tmpStack.length + (s.drainLoop env bs ms).1.used ≤
      s.tmpStack.length + s.used + bs.length ∧
    (∀ l, (s.drainLoop env bs ms).2 = .ok l → ∃ L', l = ms ++ L'.map msgOf ∧
      Acc env (s.drainLoop env bs ms).1 (L ++ L') ∧ (∀ x ∈ L', userPlain env.cr x.1 x.2 ∈ bs ∧ x.1 < u64Size) ∧
      ∀ m, (s.drainLoop env bs ms).1.seen m ↔ s.seen m ∨ ∃ x ∈ L', x.1 = m) ∧
    Acc env (s.drainLoop env bs ms).1 L := by
  induction bs generalizing s ms L with
  | nil =>
    unfold Layer.drainLoop
    refine ⟨hw, by simp, ?_, ha⟩
    intro l hl
    simp only [Res.ok.injEq] at hl
    subst hl
    exact ⟨[], by simp, by simpa using ha, by simp, by simp⟩
  | cons b bs ih =>
    obtain ⟨n, d, hp, hh⟩ := hb b (by simp)
    have hb2 : Stackable env bs := fun b hm => hb b (by simp [hm])
    unfold Layer.drainLoop
    rw [readInner_stacked s hp hh]
    simp only [List.length_cons] at hnw ⊢
    rcases readUser_acc hw ha hp hh (by rcases hnw with h | h; exact .inl h; right; omega) with
      ⟨payload, h1, h2, h2', -, -, -, h6, h7, h8, h9, h10⟩ | ⟨h1, h2, h3, h4, h5, h6, h7⟩
    · rcases hr : s.readUser env d n with ⟨s', r⟩
      rw [hr] at h1 h6 h7 h8 h9 h10
      simp only at h1 h6 h7 h8 h9 h10
      subst h1
      obtain ⟨i1, i2, i3, i4⟩ := ih (ms ++ [msgOf (n, payload)]) hb2 h8 h6
        (by rcases hnw with h | h; exact .inl h; right; omega)
      refine ⟨i1, by rw [h9, h7] at i2; dsimp only; omega, ?_, ?_⟩
      · intro l hl
        obtain ⟨L', j1, j2, j3, j4⟩ := i3 l hl
        refine ⟨(n, payload) :: L', by rw [j1]; simp, by simpa using j2, ?_, ?_⟩
        · intro x hx
          rcases List.mem_cons.mp hx with rfl | hx
          · exact ⟨by rw [h2]; simp, h2'⟩
          · exact ⟨List.mem_cons_of_mem _ (j3 x hx).1, (j3 x hx).2⟩
        · intro m
          rw [j4 m, h10 m]
          constructor
          · rintro ((h | h) | ⟨x, hx, h⟩)
            · exact .inl h
            · exact .inr ⟨(n, payload), by simp, h.symm⟩
            · exact .inr ⟨x, by simp [hx], h⟩
          · rintro (h | ⟨x, hx, h⟩)
            · exact .inl (.inl h)
            · rcases List.mem_cons.mp hx with rfl | hx
              · exact .inl (.inr h.symm)
              · exact .inr ⟨x, hx, h⟩
      · refine ⟨?_, ?_⟩
        · have := i4.nodup
          rw [List.map_append] at this
          exact (List.nodup_append.mp this).1
        · rcases i4.seen with h | h
          · exact .inl fun x hx => h x (List.mem_append_left _ hx)
          · exact .inr h
    · rcases hr : s.readUser env d n with ⟨s', (_ | m) | e | q⟩
      · rw [hr] at h2 h3 h4 h5 h6
        simp only at h2 h3 h4 h5 h6
        obtain ⟨-, he⟩ := h6 trivial
        simp only [Prod.mk.injEq, and_true] at he
        have hu : s'.used = s.used := by rw [he]; rfl
        have hse : ∀ m, s'.seen m ↔ s.seen m := by rw [he]; intro m; rfl
        obtain ⟨i1, i2, i3, i4⟩ := ih ms hb2 h4 h2
          (by rcases hnw with h | h; exact .inl h; right; omega)
        have hst : s'.tmpStack.length = s.tmpStack.length + 1 := by rw [he]; simp
        refine ⟨i1, by dsimp only; omega, ?_, i4⟩
        intro l hl
        obtain ⟨L', j1, j2, j3, j4⟩ := i3 l hl
        refine ⟨L', j1, j2, fun x hx => ⟨List.mem_cons_of_mem _ (j3 x hx).1, (j3 x hx).2⟩, ?_⟩
        intro m
        rw [j4 m, hse m]
      · exact absurd (by rw [hr]) (h1 m)
      · rw [hr] at h2 h3 h4 h5
        simp only at h2 h3 h4 h5 ⊢
        exact ⟨h4, by omega, by simp, h2⟩
      · rw [hr] at h2 h3 h4 h5
        simp only at h2 h3 h4 h5 ⊢
        exact ⟨h4, by omega, by simp, h2⟩

end
end Pkstl
