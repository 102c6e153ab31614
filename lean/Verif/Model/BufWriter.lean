import Verif.Model.Base
/-
`std::io::BufWriter<W>` over an arbitrary inner writer `W`, because the library writes user messages and
signatures into a `BufWriter<W>` supplied by the application.
-/
namespace Pkstl

/-- What the inner writer answers to one `write` call. -/
inductive WResp where
  /-- accept at most `n` bytes (`Ok(min n len)`) -/
  | accept (n : Nat)
  /-- `Err(Interrupted)` -/
  | interrupted
  /-- any other error -/
  | fail
  deriving DecidableEq, Repr

/-- The application's `W: Write`: the bytes it has taken so far and its answers to the next `write`
calls (when the script is used up it takes everything).  Every terminating interaction with any writer
is an interaction with some finite script. -/
structure Sink where
  taken : Bytes
  script : List WResp
  deriving DecidableEq, Repr

/-- `W::write`. -/
def Sink.write (s : Sink) (d : Bytes) : Sink × Except IoError Nat :=
  match s.script with
  | [] => ({ s with taken := s.taken ++ d }, .ok d.length)
  | .accept n :: r => ({ taken := s.taken ++ d.take n, script := r }, .ok (min n d.length))
  | .interrupted :: r => ({ s with script := r }, .error .interrupted)
  | .fail :: r => ({ s with script := r }, .error .other)

/-- `std::io::BufWriter<W>`: capacity, buffered bytes, inner writer. -/
structure BufW where
  cap : Nat
  buf : Bytes
  sink : Sink
  deriving DecidableEq, Repr

/-- Loop of `BufWriter::flush_buf` (std): bytes taken, remaining script, bytes left, error. -/
def flushLoop : List WResp → Bytes → Bytes → Sink × Bytes × Option IoError
  | script, taken, [] => (⟨taken, script⟩, [], none)
  | [], taken, d => (⟨taken ++ d, []⟩, [], none)
  | .accept 0 :: r, taken, d => (⟨taken, r⟩, d, some .writeZero)
  | .accept (n + 1) :: r, taken, d => flushLoop r (taken ++ d.take (n + 1)) (d.drop (n + 1))
  | .interrupted :: r, taken, d => flushLoop r taken d
  | .fail :: r, taken, d => (⟨taken, r⟩, d, some .other)

/-- `BufWriter::flush_buf` (std). -/
def BufW.flushBuf (w : BufW) : BufW × Except IoError Unit :=
  match flushLoop w.sink.script w.sink.taken w.buf with
  | (sink, left, none) => ({ w with buf := left, sink := sink }, .ok ())
  | (sink, left, some e) => ({ w with buf := left, sink := sink }, .error e)

/-- `<BufWriter as Write>::write` (std), after the optional flush: big slices bypass the buffer and
may be taken only partially. -/
def BufW.writeNoFlush (w : BufW) (d : Bytes) : BufW × Except IoError Nat :=
  if w.cap ≤ d.length then
    let (sink, r) := w.sink.write d
    ({ w with sink := sink }, r)
  else ({ w with buf := w.buf ++ d }, .ok d.length)

/-- `<BufWriter as Write>::write` (std). -/
def BufW.write (w : BufW) (d : Bytes) : BufW × Except IoError Nat :=
  if w.cap < w.buf.length + d.length then
    match w.flushBuf with
    | (w, .error e) => (w, .error e)
    | (w, .ok ()) => w.writeNoFlush d
  else w.writeNoFlush d

theorem flushLoop_script_length (script : List WResp) (taken d : Bytes) :
    (flushLoop script taken d).1.script.length ≤ script.length := by
  fun_induction flushLoop <;> simp_all <;> omega

theorem flushLoop_not_interrupted (script : List WResp) (taken d : Bytes) :
    (flushLoop script taken d).2.2 ≠ some .interrupted := by
  fun_induction flushLoop <;> simp_all

theorem BufW.writeNoFlush_measure (w : BufW) (d : Bytes) :
    (w.writeNoFlush d).1.sink.script.length ≤ w.sink.script.length ∧
    ((w.writeNoFlush d).2 = .error .interrupted →
      (w.writeNoFlush d).1.sink.script.length < w.sink.script.length) := by
  unfold BufW.writeNoFlush Sink.write
  split
  · rcases w.sink with ⟨t, _ | ⟨_ | _ | _, r⟩⟩ <;> simp
  · simp

theorem BufW.write_measure (w : BufW) (d : Bytes) :
    (w.write d).1.sink.script.length ≤ w.sink.script.length ∧
    ((w.write d).2 = .error .interrupted →
      (w.write d).1.sink.script.length < w.sink.script.length) := by
  unfold BufW.write BufW.flushBuf
  have h1 := flushLoop_script_length w.sink.script w.sink.taken w.buf
  have h2 := flushLoop_not_interrupted w.sink.script w.sink.taken w.buf
  split
  · generalize hf : flushLoop w.sink.script w.sink.taken w.buf = f at *
    obtain ⟨sink, left, _ | e⟩ := f
    · have h3 := BufW.writeNoFlush_measure { w with buf := left, sink := sink } d
      simp at h1 h3 ⊢
      exact ⟨by omega, fun h => by have := h3.2 h; omega⟩
    · simp at h1 h2 ⊢
      exact ⟨h1, fun h => absurd h h2⟩
  · exact BufW.writeNoFlush_measure w d

/-- `Write::write_all` (std default method, used by `BufWriter`). -/
def BufW.writeAll (w : BufW) (d : Bytes) : BufW × Except IoError Unit :=
  if hd : d = [] then (w, .ok ())
  else
    match h : w.write d with
    | (w', .ok 0) => (w', .error .writeZero)
    | (w', .ok (n + 1)) => w'.writeAll (d.drop (n + 1))
    | (w', .error .interrupted) => w'.writeAll d
    | (w', .error e) => (w', .error e)
  termination_by d.length + w.sink.script.length
  decreasing_by
    · have := BufW.write_measure w d
      rw [h] at this
      have hlen : 0 < d.length := List.length_pos_iff.mpr hd
      simp at this ⊢; omega
    · have := BufW.write_measure w d
      rw [h] at this
      simp at this ⊢; omega

/-- Several `write_all` calls in sequence, stopping at the first error. -/
def BufW.writeAllList (w : BufW) : List Bytes → BufW × Except IoError Unit
  | [] => (w, .ok ())
  | d :: ds =>
    match w.writeAll d with
    | (w, .ok ()) => w.writeAllList ds
    | (w, .error e) => (w, .error e)

/-- Everything handed over to the stream so far: bytes taken by the inner writer, then buffered bytes. -/
def BufW.stream (w : BufW) : Bytes := w.sink.taken ++ w.buf

end Pkstl
