import Verif.Lemmas.BufWriter
import Verif.Model.Complete
/- Writers that take everything for a while and then only part of one `write`. -/
namespace Pkstl
open Spec

theorem flushLoop_accept {N : Nat} (rest : List WResp) (taken d : Bytes) (h0 : d ≠ []) (hN : d.length ≤ N) :
    flushLoop (.accept N :: rest) taken d = (⟨taken ++ d, rest⟩, [], none) := by
  obtain ⟨n, rfl⟩ : ∃ n, N = n + 1 := by
    cases N with
    | zero => simp at hN; exact absurd hN h0
    | succ n => exact ⟨n, rfl⟩
  cases d with
  | nil => exact absurd rfl h0
  | cons x xs =>
    unfold flushLoop
    rw [List.take_of_length_le hN, List.drop_of_length_le hN]
    cases rest with
    | nil => simp [flushLoop]
    | cons r rs => cases r <;> simp [flushLoop]

/-- One `write` over a writer that takes everything: it uses up at most two answers. -/
theorem write_accept {N cap : Nat} (buf taken d : Bytes) (hb : buf.length ≤ cap) (hN : cap ≤ N) (hd : d.length ≤ N) :
    ∃ m buf' taken', buf'.length ≤ cap ∧ taken' ++ buf' = taken ++ buf ++ d ∧
      ∀ rest, (⟨cap, buf, ⟨taken, List.replicate m (.accept N) ++ rest⟩⟩ : BufW).write d =
        (⟨cap, buf', ⟨taken', rest⟩⟩, .ok d.length) := by
  by_cases hf : cap < buf.length + d.length
  · by_cases hb0 : buf = []
    · subst hb0
      by_cases hc : cap ≤ d.length
      · refine ⟨1, [], taken ++ d, by simp, by simp, fun rest => ?_⟩
        have : flushLoop (.accept N :: rest) taken [] = (⟨taken, .accept N :: rest⟩, [], none) := by
          unfold flushLoop; rfl
        simp only [List.length_nil, Nat.zero_add] at hf
        simp [BufW.write, hf, BufW.flushBuf, List.replicate, this, BufW.writeNoFlush, hc, Sink.write, hd]
      · simp at hf; omega
    · by_cases hc : cap ≤ d.length
      · refine ⟨2, [], taken ++ buf ++ d, by simp, by simp, fun rest => ?_⟩
        have := flushLoop_accept (N := N) (.accept N :: rest) taken buf hb0 (by omega)
        simp [BufW.write, hf, BufW.flushBuf, List.replicate, this, BufW.writeNoFlush, hc, Sink.write, hd]
      · refine ⟨1, d, taken ++ buf, by omega, by simp, fun rest => ?_⟩
        have := flushLoop_accept (N := N) rest taken buf hb0 (by omega)
        simp [BufW.write, hf, BufW.flushBuf, List.replicate, this, BufW.writeNoFlush, hc]
  · by_cases hc : cap ≤ d.length
    · have hb0 : buf = [] := List.length_eq_zero_iff.mp (by omega)
      subst hb0
      refine ⟨1, [], taken ++ d, by simp, by simp, fun rest => ?_⟩
      have hf' : ¬ cap < d.length := by simpa using hf
      simp [BufW.write, hf', List.replicate, BufW.writeNoFlush, hc, Sink.write, hd]
    · refine ⟨0, buf ++ d, taken, by simp; omega, by simp, fun rest => ?_⟩
      simp [BufW.write, hf, BufW.writeNoFlush, hc]

theorem writeAll_accept {N cap : Nat} (buf taken d : Bytes) (hb : buf.length ≤ cap) (hN : cap ≤ N)
    (hd : d.length ≤ N) :
    ∃ m buf' taken', buf'.length ≤ cap ∧ taken' ++ buf' = taken ++ buf ++ d ∧
      ∀ rest, (⟨cap, buf, ⟨taken, List.replicate m (.accept N) ++ rest⟩⟩ : BufW).writeAll d =
        (⟨cap, buf', ⟨taken', rest⟩⟩, .ok ()) := by
  by_cases h0 : d = []
  · subst h0
    refine ⟨0, buf, taken, hb, by simp, fun rest => ?_⟩
    rw [BufW.writeAll]
    simp
  · obtain ⟨m, buf', taken', h1, h2, h3⟩ := write_accept buf taken d hb hN hd
    refine ⟨m, buf', taken', h1, h2, fun rest => ?_⟩
    have hl : 0 < d.length := List.length_pos_iff.mpr h0
    rw [BufW.writeAll]
    simp only [h0, dif_neg, not_false_eq_true]
    split
    · rename_i w' he
      rw [h3] at he
      simp at he
      exact absurd he.2 h0
    · rename_i w' n he
      rw [h3] at he
      simp only [Prod.mk.injEq, Except.ok.injEq] at he
      obtain ⟨rfl, he⟩ := he
      rw [show n + 1 = d.length from he.symm, List.drop_length, BufW.writeAll]
      simp
    · rename_i w' he
      rw [h3] at he
      simp at he
    · rename_i w' e he
      rw [h3] at he
      simp at he

theorem writeAllList_accept {N cap : Nat} (ds : List Bytes) (buf taken : Bytes) (hb : buf.length ≤ cap) (hN : cap ≤ N)
    (hd : ds.flatten.length ≤ N) :
    ∃ m buf' taken', buf'.length ≤ cap ∧ taken' ++ buf' = taken ++ buf ++ ds.flatten ∧
      ∀ rest, (⟨cap, buf, ⟨taken, List.replicate m (.accept N) ++ rest⟩⟩ : BufW).writeAllList ds =
        (⟨cap, buf', ⟨taken', rest⟩⟩, .ok ()) := by
  induction ds generalizing buf taken with
  | nil => exact ⟨0, buf, taken, hb, by simp, fun rest => rfl⟩
  | cons d ds ih =>
    simp only [List.flatten_cons, List.length_append] at hd
    obtain ⟨m1, b1, t1, h1, h2, h3⟩ := writeAll_accept (N := N) buf taken d hb hN (by omega)
    obtain ⟨m2, b2, t2, h4, h5, h6⟩ := ih b1 t1 h1 (by omega)
    refine ⟨m1 + m2, b2, t2, h4, by rw [h5, h2]; simp, fun rest => ?_⟩
    rw [← List.replicate_append_replicate, List.append_assoc, BufW.writeAllList, h3]
    exact h6 rest

/-- A writer below a buffer of at most 16 bytes: it takes the whole ciphertext, then `j` bytes of the tag. -/
theorem encrypt_truncated (env : Env) (law : env.cr.Lawful) (k : SecretKey) (p : Bytes) {cap j : Nat} (hcap : cap ≤ 16)
    (hj : j ≤ 16) :
    ∃ script w', encrypt env k p ⟨cap, [], ⟨[], script⟩⟩ = (w', .ok ()) ∧
      w'.stream = (aeadSeal env.cr k p).take (p.length + j) := by
  have hcl : (xorKeystream env.cr k p).length = p.length := by simp [xorKeystream]
  obtain ⟨m, b, t, h1, h2, h3⟩ := writeAllList_accept (N := 16 + p.length) (cap := cap)
    (env.cr.chunks (k.cipher env.cr p)) [] [] (by simp) (by omega)
    (by rw [law.chunks_flatten, cipher_eq, hcl]; omega)
  have hct : t ++ b = xorKeystream env.cr k p := by
    rw [law.chunks_flatten, cipher_eq] at h2; simpa using h2
  have htag : (k.tag env.cr (k.cipher env.cr p)).length = 16 := law.polyTag_length _ _ _ _
  have hfin : ∀ w' : BufW, w'.stream = t ++ b ++ (k.tag env.cr (k.cipher env.cr p)).take j →
      w'.stream = (aeadSeal env.cr k p).take (p.length + j) := by
    intro w' hw'
    rw [hw', hct, aeadSeal, ← hcl, List.take_length_add_append, cipher_eq]
    rfl
  have hmin : min j 16 = j := by omega
  by_cases hb : b = []
  · refine ⟨List.replicate m (.accept (16 + p.length)) ++ [.accept j],
      ⟨cap, [], ⟨t ++ (k.tag env.cr (k.cipher env.cr p)).take j, []⟩⟩, ?_, hfin _ (by simp [BufW.stream, hb])⟩
    subst hb
    have hfl : flushLoop [.accept j] t [] = (⟨t, [.accept j]⟩, [], none) := by unfold flushLoop; rfl
    have hwr : (⟨cap, [], ⟨t, [.accept j]⟩⟩ : BufW).write (k.tag env.cr (k.cipher env.cr p)) =
        (⟨cap, [], ⟨t ++ (k.tag env.cr (k.cipher env.cr p)).take j, []⟩⟩, .ok j) := by
      unfold BufW.write BufW.flushBuf
      simp only [List.length_nil, Nat.zero_add, htag, hfl]
      split <;> simp [BufW.writeNoFlush, htag, hcap, Sink.write, hmin]
    unfold encrypt
    simp only [h3, hwr]
  · refine ⟨List.replicate m (.accept (16 + p.length)) ++ [.accept 16, .accept j],
      ⟨cap, [], ⟨t ++ b ++ (k.tag env.cr (k.cipher env.cr p)).take j, []⟩⟩, ?_, hfin _ (by simp [BufW.stream])⟩
    have hbl : 0 < b.length := List.length_pos_iff.mpr hb
    have hfl := flushLoop_accept (N := 16) [.accept j] t b hb (by omega)
    have hwr : (⟨cap, b, ⟨t, [.accept 16, .accept j]⟩⟩ : BufW).write (k.tag env.cr (k.cipher env.cr p)) =
        (⟨cap, [], ⟨t ++ b ++ (k.tag env.cr (k.cipher env.cr p)).take j, []⟩⟩, .ok j) := by
      unfold BufW.write BufW.flushBuf
      simp only [htag, hfl]
      rw [if_pos (by omega)]
      simp [BufW.writeNoFlush, htag, hcap, Sink.write, hmin]
    unfold encrypt
    simp only [h3, hwr]

/-- CONNECT and ACK messages: a slice at least as large as the buffer goes to the writer in one `write`, whose answer is
ignored. -/
theorem writeSigned_truncated (cr : Crypto) (seed b : Bytes) {cap j : Nat} (hcap : cap ≤ b.length)
    (hj : j ≤ b.length) :
    ∃ w', SecureLayer.writeSigned cr seed b ⟨cap, [], ⟨[], [.accept j]⟩⟩ = (w', .ok ()) ∧
      w'.stream = b.take j ++ cr.edSign seed b := by
  have hfl : flushLoop [.accept j] [] [] = (⟨[], [.accept j]⟩, [], none) := by unfold flushLoop; rfl
  have h1 : (⟨cap, [], ⟨[], [.accept j]⟩⟩ : BufW).write b = (⟨cap, [], ⟨b.take j, []⟩⟩, .ok (min j b.length)) := by
    unfold BufW.write BufW.flushBuf
    simp only [hfl]
    split <;> simp [BufW.writeNoFlush, hcap, Sink.write]
  unfold SecureLayer.writeSigned SecureLayer.signAndWriteSig
  rw [h1]
  dsimp only
  obtain ⟨h2, h3⟩ := write_good ⟨cap, [], ⟨b.take j, []⟩⟩ (cr.edSign seed b) rfl
  have h4 := (write_spec ⟨cap, [], ⟨b.take j, []⟩⟩ (cr.edSign seed b)).2.1 _ h2
  rcases hw : (⟨cap, [], ⟨b.take j, []⟩⟩ : BufW).write (cr.edSign seed b) with ⟨w2, e | n⟩
  · rw [hw] at h2; simp at h2
  · rw [hw] at h4
    exact ⟨w2, rfl, by rw [h4.2.1]; simp [BufW.stream]⟩

/-- The same for the signature below a buffer of at most 64 bytes. -/
theorem writeSigned_truncated_sig (cr : Crypto) (seed b : Bytes) {cap j : Nat} (hcap : cap ≤ b.length)
    (hs : cap ≤ (cr.edSign seed b).length) (hj : j ≤ (cr.edSign seed b).length) :
    ∃ w', SecureLayer.writeSigned cr seed b ⟨cap, [], ⟨[], [.accept b.length, .accept j]⟩⟩ = (w', .ok ()) ∧
      w'.stream = b ++ (cr.edSign seed b).take j := by
  have hfl : flushLoop [.accept b.length, .accept j] [] [] = (⟨[], [.accept b.length, .accept j]⟩, [], none) := by
    unfold flushLoop; rfl
  have h1 : (⟨cap, [], ⟨[], [.accept b.length, .accept j]⟩⟩ : BufW).write b =
      (⟨cap, [], ⟨b, [.accept j]⟩⟩, .ok b.length) := by
    unfold BufW.write BufW.flushBuf
    simp only [hfl]
    split <;> simp [BufW.writeNoFlush, hcap, Sink.write]
  have hfl2 : flushLoop [.accept j] b [] = (⟨b, [.accept j]⟩, [], none) := by unfold flushLoop; rfl
  unfold SecureLayer.writeSigned SecureLayer.signAndWriteSig
  rw [h1]
  dsimp only
  have h2 : (⟨cap, [], ⟨b, [.accept j]⟩⟩ : BufW).write (cr.edSign seed b) =
      (⟨cap, [], ⟨b ++ (cr.edSign seed b).take j, []⟩⟩, .ok (min j (cr.edSign seed b).length)) := by
    unfold BufW.write BufW.flushBuf
    simp only [hfl2]
    split <;> simp [BufW.writeNoFlush, hs, Sink.write]
  rw [h2]
  exact ⟨_, rfl, by simp [BufW.stream]⟩

/-- A message shorter than the buffer, and a signature shorter than the buffer, are never truncated. -/
theorem writeSigned_ok {cr : Crypto} {seed b : Bytes} {w w' : BufW} (hb : b.length < w.cap)
    (hs : (cr.edSign seed b).length < w.cap) (h : SecureLayer.writeSigned cr seed b w = (w', .ok ())) :
    w'.stream = w.stream ++ (b ++ cr.edSign seed b) ∧ w'.cap = w.cap := by
  unfold SecureLayer.writeSigned SecureLayer.signAndWriteSig at h
  obtain ⟨h1, h2, -⟩ := write_spec w b
  rcases hw : w.write b with ⟨w1, e | n⟩
  · rw [hw] at h; simp at h
  · rw [hw] at h h1 h2
    dsimp only at h h1 h2
    obtain ⟨h3, h4, -⟩ := write_spec w1 (cr.edSign seed b)
    rcases hw1 : w1.write (cr.edSign seed b) with ⟨w2, e | n2⟩
    · rw [hw1] at h; simp at h
    · rw [hw1] at h h3 h4
      simp only [Prod.mk.injEq, and_true] at h
      subst h
      obtain ⟨h5, h6, h7⟩ := h2 n rfl
      obtain ⟨h8, h9, h10⟩ := h4 n2 rfl
      rw [h7 hb, List.take_length] at h6
      rw [h10 (by omega), List.take_length] at h9
      dsimp only at h3 h9
      exact ⟨by rw [h9, h6]; simp, by omega⟩

/-- Over a writer that takes everything nothing is truncated, whatever the buffer. -/
theorem writeSigned_good (cr : Crypto) (seed b : Bytes) {w : BufW} (hw : w.sink.script = []) :
    ∃ w', SecureLayer.writeSigned cr seed b w = (w', .ok ()) ∧
      w'.stream = w.stream ++ (b ++ cr.edSign seed b) ∧ w'.sink.script = [] ∧ w'.cap = w.cap := by
  unfold SecureLayer.writeSigned SecureLayer.signAndWriteSig
  obtain ⟨h1, h2⟩ := write_good w b hw
  obtain ⟨h3, h4, -⟩ := write_spec w b
  rcases hw1 : w.write b with ⟨w1, e | n⟩
  · rw [hw1] at h1; simp at h1
  · rw [hw1] at h1 h2 h3 h4
    simp only [Except.ok.injEq] at h1
    subst h1
    dsimp only at *
    obtain ⟨h5, h6⟩ := write_good w1 (cr.edSign seed b) h2
    obtain ⟨h7, h8, -⟩ := write_spec w1 (cr.edSign seed b)
    rcases hw2 : w1.write (cr.edSign seed b) with ⟨w2, e | n⟩
    · rw [hw2] at h5; simp at h5
    · rw [hw2] at h5 h6 h7 h8
      simp only [Except.ok.injEq] at h5
      subst h5
      have a1 := (h4 _ rfl).2.1
      have a2 := (h8 _ rfl).2.1
      rw [List.take_length] at a1 a2
      exact ⟨w2, rfl, by rw [a2, a1]; simp, h6, by dsimp only at h7; omega⟩

end Pkstl
