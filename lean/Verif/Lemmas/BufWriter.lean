import Verif.Lemmas.Crypto
/- The buffered writer never reorders or duplicates bytes. -/
namespace Pkstl
open Spec

theorem flushLoop_spec (script : List WResp) (taken d : Bytes) :
    (flushLoop script taken d).1.taken ++ (flushLoop script taken d).2.1 = taken ++ d ∧
    ((flushLoop script taken d).2.2 = none → (flushLoop script taken d).2.1 = []) := by
  fun_induction flushLoop <;> simp_all

theorem flushBuf_spec (w : BufW) :
    w.flushBuf.1.stream = w.stream ∧ w.flushBuf.1.cap = w.cap ∧
    (w.flushBuf.2 = .ok () → w.flushBuf.1.buf = []) := by
  have h := flushLoop_spec w.sink.script w.sink.taken w.buf
  unfold BufW.flushBuf
  rcases hf : flushLoop w.sink.script w.sink.taken w.buf with ⟨sink, left, _ | e⟩
  · rw [hf] at h
    simp at h
    obtain ⟨h1, rfl⟩ := h
    simpa [BufW.stream] using h1
  · rw [hf] at h
    simp at h
    simp [BufW.stream, h]

theorem writeNoFlush_spec (w : BufW) (d : Bytes) (hb : w.cap ≤ d.length → w.buf = []) :
    (w.writeNoFlush d).1.cap = w.cap ∧
    (∀ n, (w.writeNoFlush d).2 = .ok n → n ≤ d.length ∧
      (w.writeNoFlush d).1.stream = w.stream ++ d.take n ∧ (d.length < w.cap → n = d.length)) ∧
    (∀ e, (w.writeNoFlush d).2 = .error e → (w.writeNoFlush d).1.stream = w.stream ∧ w.cap ≤ d.length) := by
  unfold BufW.writeNoFlush
  split
  · rename_i hc
    have hb := hb hc
    unfold Sink.write
    rcases hs : w.sink with ⟨t, _ | ⟨_ | _ | _, r⟩⟩ <;> simp [BufW.stream, hb, hs, hc]
    omega
  · simp [BufW.stream]

theorem write_spec (w : BufW) (d : Bytes) :
    (w.write d).1.cap = w.cap ∧
    (∀ n, (w.write d).2 = .ok n → n ≤ d.length ∧
      (w.write d).1.stream = w.stream ++ d.take n ∧ (d.length < w.cap → n = d.length)) ∧
    (∀ e, (w.write d).2 = .error e → (w.write d).1.stream = w.stream) := by
  unfold BufW.write
  split
  · obtain ⟨h1, h2, h3⟩ := flushBuf_spec w
    rcases hf : w.flushBuf with ⟨w1, e | u⟩
    · rw [hf] at h1 h2
      simp only at h1 h2
      simp [h1, h2]
    · rw [hf] at h1 h2 h3
      simp only at h1 h2 h3 ⊢
      obtain ⟨g1, g2, g3⟩ := writeNoFlush_spec w1 d (fun _ => h3 trivial)
      refine ⟨by rw [g1, h2], ?_, ?_⟩
      · intro n hn
        have := g2 n hn
        rw [h1, h2] at this
        exact this
      · intro e he
        rw [(g3 e he).1, h1]
  · obtain ⟨g1, g2, g3⟩ := writeNoFlush_spec w d (fun h => by
      have : w.buf.length = 0 := by omega
      exact List.length_eq_zero_iff.mp this)
    exact ⟨g1, g2, fun e he => (g3 e he).1⟩

theorem writeAll_spec (w : BufW) (d : Bytes) :
    (w.writeAll d).1.cap = w.cap ∧
    ((w.writeAll d).2 = .ok () → (w.writeAll d).1.stream = w.stream ++ d) ∧
    ∃ p, p <+: d ∧ (w.writeAll d).1.stream = w.stream ++ p := by
  fun_induction BufW.writeAll with
  | case1 w => simp
  | case2 w d hd w' h =>
    obtain ⟨h1, h2, -⟩ := write_spec w d
    rw [h] at h1 h2
    have := h2 0 rfl
    simp at this ⊢
    exact ⟨h1, [], by simp, by simp [this.1]⟩
  | case3 w d hd w' n h ih =>
    obtain ⟨h1, h2, -⟩ := write_spec w d
    rw [h] at h1 h2
    have h2 := (h2 (n + 1) rfl)
    simp only at h1 h2
    obtain ⟨i1, i2, p, i3, i4⟩ := ih
    refine ⟨i1.trans h1, fun hok => ?_, d.take (n + 1) ++ p, ?_, ?_⟩
    · rw [i2 hok, h2.2.1, List.append_assoc, List.take_append_drop]
    · conv => rhs; rw [← List.take_append_drop (n + 1) d]
      rw [List.prefix_append_right_inj]
      exact i3
    · rw [i4, h2.2.1, List.append_assoc]
  | case4 w d hd w' h ih =>
    obtain ⟨h1, -, h3⟩ := write_spec w d
    rw [h] at h1 h3
    have h3 := h3 _ rfl
    simp only at h1 h3
    obtain ⟨i1, i2, p, i3, i4⟩ := ih
    exact ⟨i1.trans h1, fun hok => by rw [i2 hok, h3], p, i3, by rw [i4, h3]⟩
  | case5 w d hd w' e _ h =>
    obtain ⟨h1, -, h3⟩ := write_spec w d
    rw [h] at h1 h3
    have h3 := h3 _ rfl
    simp only at h1 h3
    exact ⟨h1, by simp, [], by simp, by simp [h3]⟩

theorem writeAllList_spec (w : BufW) (ds : List Bytes) :
    (w.writeAllList ds).1.cap = w.cap ∧
    ((w.writeAllList ds).2 = .ok () → (w.writeAllList ds).1.stream = w.stream ++ ds.flatten) ∧
    ∃ p, p <+: ds.flatten ∧ (w.writeAllList ds).1.stream = w.stream ++ p := by
  induction ds generalizing w with
  | nil => simp [BufW.writeAllList]
  | cons d ds ih =>
    unfold BufW.writeAllList
    obtain ⟨h1, h2, p, h3, h4⟩ := writeAll_spec w d
    rcases hw : w.writeAll d with ⟨w1, e | u⟩
    · rw [hw] at h1 h2 h4
      simp only at h1 h2 h4
      refine ⟨h1, by simp, p, ?_, h4⟩
      exact h3.trans (by simp)
    · rw [hw] at h1 h2 h4
      simp only at h1 h2 h4
      have h2 := h2 trivial
      obtain ⟨i1, i2, q, i3, i4⟩ := ih w1
      refine ⟨i1.trans h1, fun hok => ?_, d ++ q, ?_, ?_⟩
      · rw [i2 hok, h2]; simp
      · simpa [List.prefix_append_right_inj] using i3
      · rw [i4, h2]; simp

/-- `Ok` from the encryption means that everything is in the stream. -/
theorem encrypt_ok {env : Env} (law : env.cr.Lawful) {k : SecretKey} {p : Bytes} {w w' : BufW}
    (hcap : 16 < w.cap) (h : encrypt env k p w = (w', .ok ())) :
    w'.stream = w.stream ++ aeadSeal env.cr k p ∧ w'.cap = w.cap := by
  unfold encrypt at h
  dsimp only at h
  obtain ⟨h1, h2, -⟩ := writeAllList_spec w (env.cr.chunks (k.cipher env.cr p))
  rcases hw : w.writeAllList (env.cr.chunks (k.cipher env.cr p)) with ⟨w1, e | u⟩
  · simp [hw] at h
  · rw [hw] at h1 h2 h
    simp only at h1 h2 h
    have h2 := h2 trivial
    rw [law.chunks_flatten] at h2
    obtain ⟨g1, g2, -⟩ := write_spec w1 (k.tag env.cr (k.cipher env.cr p))
    rcases hv : w1.write (k.tag env.cr (k.cipher env.cr p)) with ⟨w2, e | n⟩
    · simp [hv] at h
    · rw [hv] at g1 g2 h
      simp only [Prod.mk.injEq, and_true] at g1 g2 h
      subst h
      have hlen : (k.tag env.cr (k.cipher env.cr p)).length = 16 := law.polyTag_length _ _ _ _
      obtain ⟨g3, g4, g5⟩ := g2 n rfl
      have g5 := g5 (by rw [hlen, h1]; exact hcap)
      rw [g5, List.take_length, h2] at g4
      refine ⟨?_, by rw [g1, h1]⟩
      rw [g4, aeadSeal, cipher_eq, SecretKey.tag]
      simp

/-- Whatever the outcome, only a prefix of the sealed message reaches the stream. -/
theorem encrypt_prefix {env : Env} (law : env.cr.Lawful) (k : SecretKey) (p : Bytes) (w : BufW) :
    (∃ q, q <+: aeadSeal env.cr k p ∧ (encrypt env k p w).1.stream = w.stream ++ q) ∧
    (encrypt env k p w).1.cap = w.cap := by
  unfold encrypt
  dsimp only
  obtain ⟨h1, h2, q, h3, h4⟩ := writeAllList_spec w (env.cr.chunks (k.cipher env.cr p))
  rw [law.chunks_flatten] at h2 h3
  rw [cipher_eq] at *
  rcases hw : w.writeAllList (env.cr.chunks (xorKeystream env.cr k p)) with ⟨w1, e | u⟩
  · rw [hw] at h1 h4
    exact ⟨⟨q, h3.trans (by simp [aeadSeal]), h4⟩, h1⟩
  · rw [hw] at h1 h2
    simp only at h1 h2 ⊢
    have h2 := h2 trivial
    obtain ⟨g1, g2, g3⟩ := write_spec w1 (k.tag env.cr (xorKeystream env.cr k p))
    rcases hv : w1.write (k.tag env.cr (xorKeystream env.cr k p)) with ⟨w2, e | n⟩
    · rw [hv] at g1 g3
      have g3 := g3 e rfl
      simp only at g1 g3 ⊢
      exact ⟨⟨xorKeystream env.cr k p, by simp [aeadSeal], by rw [g3, h2]⟩, by rw [g1, h1]⟩
    · rw [hv] at g1 g2
      obtain ⟨-, g4, -⟩ := g2 n rfl
      simp only at g1 g4 ⊢
      refine ⟨⟨xorKeystream env.cr k p ++ (k.tag env.cr (xorKeystream env.cr k p)).take n, ?_, ?_⟩, by rw [g1, h1]⟩
      · rw [aeadSeal, List.prefix_append_right_inj, SecretKey.tag]
        exact List.take_prefix _ _
      · rw [g4, h2]; simp

/-- A writer that never refuses anything takes everything. -/
theorem write_good (w : BufW) (d : Bytes) (h : w.sink.script = []) :
    (w.write d).2 = .ok d.length ∧ (w.write d).1.sink.script = [] := by
  rcases w with ⟨cap, buf, taken, script⟩
  simp only at h
  subst h
  have hf : flushLoop [] taken buf = (⟨taken ++ buf, []⟩, [], none) := by
    cases buf <;> simp [flushLoop]
  unfold BufW.write BufW.flushBuf
  simp only [hf]
  split <;>
  · unfold BufW.writeNoFlush Sink.write
    split <;> simp

theorem writeAll_good (w : BufW) (d : Bytes) (h : w.sink.script = []) :
    (w.writeAll d).2 = .ok () ∧ (w.writeAll d).1.sink.script = [] := by
  obtain ⟨h1, h2⟩ := write_good w d h
  rw [BufW.writeAll]
  split
  · exact ⟨rfl, h⟩
  · rename_i hd
    have hl : 0 < d.length := List.length_pos_iff.mpr hd
    split
    · rename_i w' hw
      rw [hw] at h1
      simp at h1; omega
    · rename_i w' n hw
      rw [hw] at h1 h2
      simp at h1 h2
      rw [h1, List.drop_length, BufW.writeAll]
      simp [h2]
    · rename_i w' hw; rw [hw] at h1; simp at h1
    · rename_i w' e _ hw; rw [hw] at h1; simp at h1

theorem writeAllList_good (w : BufW) (ds : List Bytes) (h : w.sink.script = []) :
    (w.writeAllList ds).2 = .ok () ∧ (w.writeAllList ds).1.sink.script = [] := by
  induction ds generalizing w with
  | nil => exact ⟨rfl, h⟩
  | cons d ds ih =>
    obtain ⟨h1, h2⟩ := writeAll_good w d h
    unfold BufW.writeAllList
    rcases hw : w.writeAll d with ⟨w1, e | u⟩
    · rw [hw] at h1; simp at h1
    · rw [hw] at h2; exact ih w1 h2

theorem encrypt_good {env : Env} (k : SecretKey) (p : Bytes) (w : BufW) (h : w.sink.script = []) :
    (encrypt env k p w).2 = .ok () ∧ (encrypt env k p w).1.sink.script = [] := by
  unfold encrypt
  dsimp only
  obtain ⟨h1, h2⟩ := writeAllList_good w (env.cr.chunks (k.cipher env.cr p)) h
  rcases hw : w.writeAllList (env.cr.chunks (k.cipher env.cr p)) with ⟨w1, e | u⟩
  · rw [hw] at h1; simp at h1
  · rw [hw] at h2
    obtain ⟨h3, h4⟩ := write_good w1 (k.tag env.cr (k.cipher env.cr p)) h2
    rcases hw2 : w1.write (k.tag env.cr (k.cipher env.cr p)) with ⟨w2, e | u⟩
    · rw [hw2] at h3; simp at h3
    · rw [hw2] at h4; simp only [hw2]; exact ⟨trivial, h4⟩

end Pkstl
