import Verif.Spec.Boundaries
import Verif.Lemmas.Refuse
import Verif.Props.Channel
import Verif.Props.Availability
/- C66: message boundaries. -/
namespace Pkstl
open Spec

variable {M : Type} {env : Env} {f : Features} {cr : Crypto} {sec : Option SecretKey}

/-! ## The messages form a prefix code -/

/-- The first 16 bytes of a frame determine its length. -/
theorem frame_head {a b s t : Bytes} (ha : a.length < 2 ^ 64) (hb : b.length < 2 ^ 64)
    (h : (frame a ++ s).take 16 = (frame b ++ t).take 16) : a.length = b.length := by
  have key : ∀ x y : Bytes, (frame x ++ y).take 16 = [0xE2, 0xC2, 0xE2, 0xD2] ++ [0, 0, 0, 1] ++ be64 x.length := by
    intro x y
    rw [List.take_append_of_le_length (by rw [frame_length]; omega), frame]
    exact List.take_left' (by simp)
  rw [key, key, List.append_cancel_left_eq] at h
  rw [← beNat_be64 (n := a.length) ha, ← beNat_be64 (n := b.length) hb, h]

/-- What a message looks like: clear, or sealed. -/
theorem wire_shape {x : Bytes} (h : WireMsg cr sec x) :
    (∃ b sig, x = frame b ++ sig ∧ sig.length = 64) ∨
    (∃ k b, sec = some k ∧ x = aeadSeal cr k (frame b ++ cr.sha256 (frame b))) := by
  cases h with
  | connect h1 h2 h3 => exact .inl ⟨_, _, rfl, h3⟩
  | ack h1 h3 => exact .inl ⟨_, _, rfl, h3⟩
  | user hk => exact .inr ⟨_, _, hk, rfl⟩

theorem prefix_take {x y : Bytes} {n : Nat} (h : x <+: y) (hn : n ≤ x.length) : y.take n = x.take n := by
  obtain ⟨z, rfl⟩ := h
  rw [List.take_append_of_le_length hn]

/-- A sealed frame begins with the encrypted header. -/
theorem sealed_head (k : SecretKey) (x : Bytes) {n : Nat} (hn : n ≤ x.length) :
    (aeadSeal cr k x).take n = xorKeystream cr k (x.take n) := by
  unfold aeadSeal
  rw [List.take_append_of_le_length (by simpa using hn)]
  have := xorKeystream_append cr k (x.take n) (x.drop n)
  rwa [List.take_append_drop, List.length_take, Nat.min_eq_left hn] at this

theorem magic_veiled {k : SecretKey} (hks : ¬ ∀ i < 4, cr.keystream k.key k.nonce i = 0) (b : Bytes) :
    (aeadSeal cr k (frame b ++ cr.sha256 (frame b))).take 4 ≠ [0xE2, 0xC2, 0xE2, 0xD2] := by
  rw [sealed_head _ _ (by simp [frame])]
  intro h
  refine hks fun i hi => ?_
  have e : (frame b ++ cr.sha256 (frame b)).take 4 = [0xE2, 0xC2, 0xE2, 0xD2] := rfl
  rw [e] at h
  simp only [xorKeystream, List.mapIdx_cons, List.mapIdx_nil, List.cons.injEq, and_true] at h
  obtain ⟨h0, h1, h2, h3⟩ := h
  have z : ∀ a b : UInt8, a ^^^ b = a → b = 0 := by
    intro a b hab
    have := congrArg (a ^^^ ·) hab
    simpa [← UInt8.xor_assoc] using this
  rcases i with _ | _ | _ | _ | i
  · exact z _ _ h0
  · exact z _ _ h1
  · exact z _ _ h2
  · exact z _ _ h3
  · omega

/-- **C66.** No message is the beginning of another one. -/
theorem C66_prefix_free (law : cr.Lawful) (hv : Veiled cr sec) {x y : Bytes} (hx : WireMsg cr sec x)
    (hy : WireMsg cr sec y) (hy64 : y.length < 2 ^ 64) (h : x <+: y) : x = y := by
  refine h.eq_of_length ?_
  have hle := h.length_le
  have clearTake : ∀ (b s : Bytes), (frame b ++ s).take 4 = [0xE2, 0xC2, 0xE2, 0xD2] := fun _ _ => rfl
  rcases wire_shape hx with ⟨a, s, rfl, hs⟩ | ⟨k, a, hk, rfl⟩ <;>
    rcases wire_shape hy with ⟨b, t, rfl, ht⟩ | ⟨k', b, hk', rfl⟩
  · have h16 := prefix_take (n := 16) h (by simp [frame_length]; omega)
    simp only [List.length_append, frame_length] at hle hy64 ⊢
    have := frame_head (by omega) (by omega) h16
    omega
  · have h4 := prefix_take (n := 4) h (by simp [frame_length]; omega)
    rw [clearTake] at h4
    exact absurd h4 (magic_veiled (hv k' hk') b)
  · have h4 := prefix_take (n := 4) h (by rw [aeadSeal_length _ law]; simp [frame_length])
    rw [clearTake] at h4
    exact absurd h4.symm (magic_veiled (hv k hk) a)
  · rw [hk, Option.some.injEq] at hk'
    subst hk'
    have h16 := prefix_take (n := 16) h (by rw [aeadSeal_length _ law]; simp [frame_length])
    rw [sealed_head _ _ (by simp [frame_length]; omega), sealed_head _ _ (by simp [frame_length]; omega)] at h16
    rw [aeadSeal_length _ law] at hy64
    simp only [aeadSeal_length _ law, List.length_append, frame_length, law.sha256_length] at hle hy64 ⊢
    have := frame_head (by omega) (by omega) (xorKeystream_inj h16)
    omega

/-- The hypotheses hold for the messages of the toy session. -/
theorem Toy.wire : Veiled Toy.cr (some Toy.key) ∧ WireMsg Toy.cr (some Toy.key) Toy.cconA ∧
    WireMsg Toy.cr (some Toy.key) Toy.cackA ∧ WireMsg Toy.cr (some Toy.key) (cipherOf Toy.cr Toy.key 0 [7]) ∧
    Toy.cconA.length < 2 ^ 64 ∧ Toy.cackA.length < 2 ^ 64 ∧ (cipherOf Toy.cr Toy.key 0 [7]).length < 2 ^ 64 := by
  refine ⟨fun k hk => ?_, .connect ?_ ?_ ?_, .ack ?_ ?_, .user rfl, ?_, ?_, ?_⟩
  · obtain rfl := Option.some.inj hk
    exact Toy.key_stream
  all_goals decide +kernel

theorem WireMsg.ne_nil (law : cr.Lawful) {x : Bytes} (h : WireMsg cr sec x) : x ≠ [] := by
  rintro rfl
  rcases wire_shape h with ⟨b, t, h, -⟩ | ⟨k, b, -, h⟩
  · have := congrArg List.length h
    simp [frame_length] at this
    omega
  · have := congrArg List.length h
    simp [aeadSeal_length _ law] at this

/-- Reading from the beginning of a stream: the messages are determined. -/
theorem code_prefix (law : cr.Lawful) (hv : Veiled cr sec) {xs ys : List Bytes}
    (hx : ∀ x ∈ xs, WireMsg cr sec x ∧ x.length < 2 ^ 64) (hy : ∀ y ∈ ys, WireMsg cr sec y ∧ y.length < 2 ^ 64)
    (h : xs.flatten <+: ys.flatten) : xs <+: ys := by
  induction xs generalizing ys with
  | nil => exact List.nil_prefix
  | cons x xs ih =>
    obtain ⟨hx0, hx⟩ := List.forall_mem_cons.mp hx
    cases ys with
    | nil =>
      simp at h
      exact absurd h.1 (WireMsg.ne_nil law hx0.1)
    | cons y ys =>
      obtain ⟨hy0, hys⟩ := List.forall_mem_cons.mp hy
      rw [List.flatten_cons, List.flatten_cons] at h
      have hp : x = y := by
        rcases List.prefix_or_prefix_of_prefix ((List.prefix_append x _).trans h) (List.prefix_append y ys.flatten) with hp | hp
        · exact C66_prefix_free law hv hx0.1 hy0.1 hy0.2 hp
        · exact (C66_prefix_free law hv hy0.1 hx0.1 hx0.2 hp).symm
      subst hp
      rw [List.prefix_append_right_inj] at h
      exact List.cons_prefix_cons.mpr ⟨rfl, ih hx hys h⟩

section
variable {st : CStart} {h : List (CEvent M)} {sl : SecureLayer}

/-- **C66.** Whatever a layer writes is a complete message. -/
theorem C66_written (law : env.cr.Lawful) (hr : CRun env f st h sl) {e : CEvent M} (he : e ∈ h) {m : Bytes} (hm : Emits e m) :
    WireMsg env.cr sl.minimal.secret m := by
  obtain ⟨w, w', hw, hs, hcap, hst, -⟩ := hm
  have split : e.wroteConnect = some (w, w') ∨ e.wroteAck = some (w, w') ∨ (e.wroteUser = some (w, w') ∧ e.writesUser = true) := by
    unfold CEvent.wrote at hw
    split at hw <;> simp_all [CEvent.wroteConnect, CEvent.wroteAck, CEvent.wroteUser, CEvent.writesUser]
  have he' := he
  obtain ⟨h1, h2, rfl⟩ := List.append_of_mem he
  obtain ⟨s1, s2, hr1, -, -, ⟨op, he1, -⟩ | ⟨he1, -⟩⟩ := hr.at rfl
  swap
  · subst he1; simp [CEvent.wrote] at hw
  rcases split with hc | hc | ⟨hc, hu⟩
  · subst he1
    obtain ⟨d, sl', h'⟩ := wroteConnect_step hc
    have := connectRaw_stream law hr1 h' (.inl hs)
    rw [hst, List.append_cancel_left_eq] at this
    rw [this]
    exact .connect (law.xPublic_length _) (law.edPublic_length _) (law.edSign_length _ _)
  · subst he1
    obtain ⟨d, sl', h'⟩ := wroteAck_step hc
    obtain ⟨epk, -, h3⟩ := ackRaw_stream law hr1 h'
    have := h3 (.inl hs)
    rw [hst, List.append_cancel_left_eq] at this
    rw [this]
    exact .ack (law.sha256_length _) (law.edSign_length _ _)
  · obtain ⟨k, n, lvl, d, hk, -, -, h3⟩ := wroteUser_sealed law hr he' hu
    have := h3 w w' hc hcap
    rw [hst, List.append_cancel_left_eq] at this
    rw [this]
    exact .user hk

/-- **C66.** The bytes that two layers with the same session key have written, run together, determine the messages: if one
stream is the beginning of the other, then its messages are the first messages of the other. -/
theorem C66_decodable {f' : Features} {st' : CStart} {h' : List (CEvent M)} {sl' : SecureLayer} (law : env.cr.Lawful)
    (hr : CRun env f st h sl) (hr' : CRun env f' st' h' sl') (hk : sl.minimal.secret = sl'.minimal.secret)
    (hv : Veiled env.cr sl.minimal.secret) {ms ms' : List Bytes}
    (hm : List.Forall₂ Emits (h.filter (·.wrote.isSome)) ms) (hm' : List.Forall₂ Emits (h'.filter (·.wrote.isSome)) ms')
    (hp : ms.flatten <+: ms'.flatten) : ms <+: ms' := by
  have key : ∀ {f : Features} {st : CStart} {h : List (CEvent M)} {sl : SecureLayer} {ms : List Bytes}, CRun env f st h sl →
      List.Forall₂ Emits (h.filter (·.wrote.isSome)) ms → ∀ m ∈ ms, WireMsg env.cr sl.minimal.secret m ∧ m.length < 2 ^ 64 := by
    intro f st h sl ms hr hm m hmem
    obtain ⟨e, he, hem⟩ := forall₂_mem_right hm hmem
    exact ⟨C66_written law hr (List.mem_filter.mp he).1 hem, hem.choose_spec.choose_spec.2.2.2.2⟩
  exact code_prefix law hv (key hr hm) (by rw [hk]; exact key hr' hm') hp

end

/-- Toy party A writes its CONNECT and its ACK; a second party A writes in addition a user message. -/
example (oc : Bool) : ∃ (h h' : List (CEvent Unit)) (sl sl' : SecureLayer) (ms ms' : List Bytes),
    CRun (Toy.env oc) f Toy.cstA h sl ∧ CRun (Toy.env oc) f Toy.cstA h' sl' ∧ sl.minimal.secret = some Toy.key ∧
    sl'.minimal.secret = some Toy.key ∧ List.Forall₂ Emits (h.filter (·.wrote.isSome)) ms ∧
    List.Forall₂ Emits (h'.filter (·.wrote.isSome)) ms' ∧ ms.flatten <+: ms'.flatten ∧ ms = [Toy.cconA, Toy.cackA] ∧
    ms'.length = 3 := by
  have s2 : ((Toy.csA Toy.a1).readBin (Toy.env oc) Toy.cconB).1 = Toy.csA Toy.a2 := by cases oc <;> decide +kernel
  have s3 : ((Toy.csA Toy.a2).readBin (Toy.env oc) Toy.cackB).1 = Toy.csA Toy.a3 := by cases oc <;> decide +kernel
  have r0 : CRun (M := Unit) (Toy.env oc) f Toy.cstA [] (Toy.csA (Toy.layer0 [1] none)) := .init rfl
  have r1 := r0.call (.connectBin (some [7, 8]) Toy.sink)
  rw [show (cstep (M := Unit) (Toy.env oc) f _ (.connectBin (some [7, 8]) Toy.sink)).1 = Toy.csA Toy.a1 from rfl] at r1
  have r2 := r1.call (.readBin Toy.cconB)
  simp only [cstep, s2] at r2
  have r3 := r2.call (.readBin Toy.cackB)
  simp only [cstep, s3] at r3
  have r4 := r3.call (.ackBin (some []) Toy.sink)
  rw [show (cstep (M := Unit) (Toy.env oc) f _ (.ackBin (some []) Toy.sink)).1 = Toy.csA Toy.a4 from rfl] at r4
  obtain ⟨w', u1, u2, -⟩ := writeBin_good (env := Toy.env oc) (sl := Toy.csA Toy.a4) Toy.lawful rfl rfl [7] (w := Toy.sink) rfl
    (by decide) (by decide)
  have r5 := r4.call (.writeBin [7] Toy.sink)
  rw [show cstep (M := Unit) (Toy.env oc) f (Toy.csA Toy.a4) (.writeBin [7] Toy.sink) = (_, .writeBin [7] Toy.sink w' (.ok ())) by
    simp only [cstep, show (Toy.csA Toy.a4).writeBin (Toy.env oc) [7] Toy.sink = _ from u1]; rfl] at r5
  have e1 : Emits (cstep (M := Unit) (Toy.env oc) f (Toy.csA (Toy.layer0 [1] none)) (.connectBin (some [7, 8]) Toy.sink)).2
      Toy.cconA := ⟨Toy.sink, _, rfl, rfl, by decide, by cases oc <;> decide +kernel, by decide +kernel⟩
  have e2 : Emits (cstep (M := Unit) (Toy.env oc) f (Toy.csA Toy.a3) (.ackBin (some []) Toy.sink)).2 Toy.cackA :=
    ⟨Toy.sink, _, rfl, rfl, by decide, by cases oc <;> decide +kernel, by decide +kernel⟩
  have e3 : Emits (CEvent.writeBin (M := Unit) [7] Toy.sink w' (.ok ())) (cipherOf Toy.cr Toy.key 0 [0, 7]) :=
    ⟨Toy.sink, w', rfl, rfl, by decide, u2, by decide +kernel⟩
  refine ⟨_, _, _, _, [Toy.cconA, Toy.cackA], [Toy.cconA, Toy.cackA, cipherOf Toy.cr Toy.key 0 [0, 7]], r4, r5, rfl, rfl, ?_, ?_, ?_, rfl, rfl⟩
  · exact .cons e1 (.cons e2 .nil)
  · exact .cons e1 (.cons e2 (.cons e3 .nil))
  · exact ⟨cipherOf Toy.cr Toy.key 0 [0, 7], by simp⟩

/-! ## Input that is not cut at the boundaries -/

theorem WireMsg.of_canonical {s : Layer} {inc : Bytes} {m : Message} (hs : s.secret = none ∨ s.secret = sec)
    (h : CanonicalInput env s inc m) : WireMsg env.cr sec inc := by
  rcases h with ⟨epk, k, p, sig, h1, h2, h3, rfl, -⟩ | ⟨c, p, sig, h1, h2, rfl, -⟩ | ⟨key, n, p, -, hk, rfl, -⟩
  · exact .connect h1 h2 h3
  · exact .ack h1 h2
  · rcases hs with hs | hs
    · rw [hs] at hk; simp at hk
    · exact .user (hs ▸ hk)

theorem misread_not_wire (law : cr.Lawful) (hv : Veiled cr sec) {x inc : Bytes} (hx : WireMsg cr sec x)
    (hx64 : x.length < 2 ^ 64) (hi64 : inc.length < 2 ^ 64) (hm : Misread x inc) : ¬ WireMsg cr sec inc := by
  intro h
  rcases hm with ⟨hp | hp, hne⟩
  · exact hne (C66_prefix_free law hv h hx hx64 hp)
  · exact hne (C66_prefix_free law hv hx h hi64 hp).symm

/-- **C66.** An input that is a message cut short, or a message with something behind it, hands over nothing.  The layer may
have the session key of the message or none. -/
theorem C66_refused (law : env.cr.Lawful) (hv : Veiled env.cr sec) {x inc : Bytes} (hx : WireMsg env.cr sec x)
    (hx64 : x.length < 2 ^ 64) (hi64 : inc.length < 2 ^ 64) (hm : Misread x inc) {sl : SecureLayer}
    (hs : sl.minimal.secret = none ∨ sl.minimal.secret = sec) :
    (∀ s' m, sl.minimal.read env inc ≠ (s', .ok (some m))) ∧
    (∀ sl' ms, sl.readBin env inc = (sl', .ok ms) → ms = []) ∧
    (∀ (c : Codec M) sl' ms, sl.readSer env f c inc = (sl', .ok ms) → ms = []) := by
  have h1 : ∀ s' m, sl.minimal.read env inc ≠ (s', .ok (some m)) := fun s' m h =>
    misread_not_wire law hv hx hx64 hi64 hm (WireMsg.of_canonical hs (C05_canonical law h))
  have h2 : ∀ sl' ms, sl.readBin env inc = (sl', .ok ms) → ms = [] := by
    intro sl' ms h
    unfold SecureLayer.readBin at h
    rcases hr : sl.minimal.read env inc with ⟨m, (_ | m') | e | p⟩
    · rw [hr] at h; simp at h; exact h.2
    · exact absurd hr (h1 _ _)
    · rw [hr] at h; simp at h
    · rw [hr] at h; simp at h
  refine ⟨h1, h2, fun c sl' ms h => ?_⟩
  unfold SecureLayer.readSer at h
  rcases hr : sl.readBin env inc with ⟨m, ms' | e | p⟩
  · have := h2 _ _ hr
    subst this
    rw [hr] at h
    simp [deserializeMsgs] at h
    exact h.2
  · rw [hr] at h; simp at h
  · rw [hr] at h; simp at h

/-- The first place where two ways to cut a stream differ. -/
theorem first_wrong_cut {xs ys : List Bytes} (hy : ∀ y ∈ ys, y ≠ []) (hx : ∀ x ∈ xs, x ≠ []) (he : ys.flatten = xs.flatten)
    (hne : ys ≠ xs) : ∃ pre x inc xs' ys', xs = pre ++ x :: xs' ∧ ys = pre ++ inc :: ys' ∧ Misread x inc := by
  induction xs generalizing ys with
  | nil =>
    cases ys with
    | nil => exact absurd rfl hne
    | cons y ys => simp at he; exact absurd he.1 (hy y (by simp))
  | cons x xs ih =>
    cases ys with
    | nil => simp at he; exact absurd he.1 (hx x (by simp))
    | cons y ys =>
      by_cases hxy : y = x
      · subst hxy
        rw [List.flatten_cons, List.flatten_cons, List.append_cancel_left_eq] at he
        obtain ⟨pre, x', inc, xs', ys', rfl, rfl, hm⟩ := ih (fun z hz => hy z (by simp [hz])) (fun z hz => hx z (by simp [hz]))
          he (fun e => hne (by rw [e]))
        exact ⟨y :: pre, x', inc, xs', ys', rfl, rfl, hm⟩
      · refine ⟨[], x, y, xs, ys, rfl, rfl, ?_, hxy⟩
        rw [List.flatten_cons, List.flatten_cons] at he
        exact List.prefix_or_prefix_of_prefix (List.prefix_append y ys.flatten) (he ▸ List.prefix_append x xs.flatten)

/-- **C66.** A stream of messages `xs` that arrives cut into other pieces `ys`: up to the first wrong cut the pieces are the
messages; the piece there is a message cut short or with something behind it, and no layer with the session key or without
one hands over anything for it. -/
theorem C66_pieces (law : env.cr.Lawful) (hv : Veiled env.cr sec) {xs ys : List Bytes} (hy : ∀ y ∈ ys, y ≠ [])
    (hx : ∀ x ∈ xs, WireMsg env.cr sec x) (hlen : xs.flatten.length < 2 ^ 64) (he : ys.flatten = xs.flatten) (hne : ys ≠ xs) :
    ∃ pre x inc xs' ys', xs = pre ++ x :: xs' ∧ ys = pre ++ inc :: ys' ∧ Misread x inc ∧
      ∀ sl : SecureLayer, (sl.minimal.secret = none ∨ sl.minimal.secret = sec) →
        (∀ sl' ms, sl.readBin env inc = (sl', .ok ms) → ms = []) ∧
        (∀ (c : Codec M) sl' ms, sl.readSer env f c inc = (sl', .ok ms) → ms = []) := by
  obtain ⟨pre, x, inc, xs', ys', rfl, rfl, hm⟩ := first_wrong_cut hy (fun x h => WireMsg.ne_nil law (hx x h)) he hne
  have h1 : x.length < 2 ^ 64 := by simp at hlen; omega
  have h2 : inc.length < 2 ^ 64 := by rw [← he] at hlen; simp at hlen; omega
  exact ⟨pre, x, inc, xs', ys', rfl, rfl, hm, fun sl hs => (C66_refused law hv (hx x (by simp)) h1 h2 hm hs).2⟩

theorem edVerify_long (law : env.cr.Lawful) {pk m sig z : Bytes} (hsig : sig.length = 64) (hz : z ≠ []) :
    env.cr.edVerify pk m (sig ++ z) = false := by
  rw [Bool.eq_false_iff]
  intro h
  have := law.edVerify_length _ _ _ h
  have : 0 < z.length := List.length_pos_iff.mpr hz
  simp at *
  omega

/-- **C66.** A CONNECT with something behind it is refused; apart from remembering the key it names, the layer is unchanged,
and the same CONNECT cut correctly is read as if nothing had happened. -/
theorem C66_merged_connect (law : env.cr.Lawful) {epk pk p sig z : Bytes} {sl : SecureLayer} (hepk : epk.length = 32)
    (hpk : pk.length = 32) (hlen : 86 + p.length < 2 ^ 64) (hsig : sig.length = 64) (hz : z ≠ [])
    (hkey : sl.minimal.peerSigPubkey = none ∨ sl.minimal.peerSigPubkey = some pk) :
    sl.readBin env (connectFrame epk pk p ++ (sig ++ z)) =
        ({ sl with minimal := { sl.minimal with peerSigPubkey := some pk } }, invalidMsg .invalidHashOrSig) ∧
      ({ sl with minimal := { sl.minimal with peerSigPubkey := some pk } } : SecureLayer).readBin env (connectFrame epk pk p ++ sig) = sl.readBin env (connectFrame epk pk p ++ sig) := by
  have same : ∀ (b : Layer) (t : Bytes), b.peerSigPubkey = none → ({ b with peerSigPubkey := some pk } : Layer).read env
      (connectFrame epk pk p ++ t) = b.read env (connectFrame epk pk p ++ t) := by
    intro b t hb
    obtain ⟨d, h1, h2, -⟩ := reader_connect (env := env) (sig := t) b.secret hepk hpk hlen
    unfold Layer.read Layer.readInner
    dsimp only
    rw [h1]
    dsimp only
    rw [h2]
    dsimp only
    unfold Layer.readConnect
    rw [hb]
    simp
  have bad : ∀ (b : Layer), b.peerSigPubkey = none → b.read env (connectFrame epk pk p ++ (sig ++ z)) =
      ({ b with peerSigPubkey := some pk }, invalidMsg .invalidHashOrSig) := fun b hb =>
    read_connect_sig_eval hepk hpk hlen hb (edVerify_long law hsig hz)
  rcases hkey with hkey | hkey
  · constructor
    · unfold SecureLayer.readBin
      rw [bad _ hkey]
    · unfold SecureLayer.readBin
      dsimp only
      rw [same _ _ hkey]
  · have e : ({ sl.minimal with peerSigPubkey := some pk } : Layer) = sl.minimal := by rw [← hkey]
    rw [e]
    refine ⟨?_, rfl⟩
    unfold SecureLayer.readBin
    have h0 := same { sl.minimal with peerSigPubkey := none } (sig ++ z) rfl
    have h1 := bad { sl.minimal with peerSigPubkey := none } rfl
    dsimp only at h0 h1
    rw [h1, e] at h0
    rw [h0]

/-- **C66.** An ACK with something behind it is refused without any effect, once the key of the peer is known. -/
theorem C66_merged_ack (law : env.cr.Lawful) {k p sig z : Bytes} {sl : SecureLayer} (hlen : 50 + p.length < 2 ^ 64)
    (hsig : sig.length = 64) (hz : z ≠ []) (hkey : sl.minimal.peerSigPubkey = some k) :
    sl.readBin env (ackFrame (env.cr.sha256 sl.minimal.ephemeralPubkey) p ++ (sig ++ z)) =
      (sl, invalidMsg .invalidHashOrSig) := by
  unfold SecureLayer.readBin
  rw [read_ack_sig_eval rfl (law.sha256_length _) hlen (edVerify_long law hsig hz) hkey]

/-- **C66.** A user message cut wrongly ends the session, unless the piece by itself is a ciphertext of the session key. -/
theorem C66_merged_user (law : env.cr.Lawful) {k : SecretKey} {n : Nat} {p inc : Bytes} {sl : SecureLayer}
    (hk : sl.minimal.secret = some k) (hv : Veiled env.cr (some k)) (hm : Misread (cipherOf env.cr k n p) inc)
    (h16 : 16 ≤ inc.length) (hno : ∀ q, inc ≠ aeadSeal env.cr k q) :
    sl.readBin env inc = ({ sl with minimal := { sl.minimal with status := .fail } }, .err .failToDecryptData) := by
  have hhead : inc.take 4 ≠ [0xE2, 0xC2, 0xE2, 0xD2] := by
    have hx := magic_veiled (cr := env.cr) (hv k rfl) ([0, 0] ++ be64 n ++ p)
    change (cipherOf env.cr k n p).take 4 ≠ _ at hx
    have hlen : 4 ≤ (cipherOf env.cr k n p).length := by unfold cipherOf; rw [aeadSeal_length _ law]; omega
    rcases hm.1 with h | h
    · rwa [prefix_take h (by omega)] at hx
    · rwa [prefix_take h hlen]
  have hd : decrypt env k inc = .err .failToDecryptData := by
    cases hd : decrypt env k inc with
    | ok q => exact absurd (decrypt_inv hd) (hno q)
    | err e => rw [decrypt_err hd]
    | panic q =>
      unfold decrypt at hd
      rw [if_neg (by simp [CHACHA20_TAG_SIZE]; omega)] at hd
      dsimp only at hd
      split at hd <;> simp at hd
  have hr : readerRead env sl.minimal.secret inc true = .err .failToDecryptData := by
    unfold readerRead openIncoming
    have h4 : sliceTo inc MAGIC_VALUE_END = .ok (inc.take 4) := if_pos (show 4 ≤ inc.length by omega)
    rw [hk, h4]
    simp only [Res.bind_ok, MAGIC_VALUE, if_neg hhead, hd]
    rfl
  unfold SecureLayer.readBin Layer.read Layer.readInner
  rw [hr]

/-- Toy party B gets the CONNECT of party A together with the ACK, then the CONNECT alone. -/
example : ∃ sl, (Toy.csB (Toy.layer0 [2] none)).readBin (Toy.env true) (Toy.cconA ++ Toy.cackA) =
      (sl, invalidMsg .invalidHashOrSig) ∧
    sl.readBin (Toy.env true) Toy.cconA = (Toy.csB Toy.b1, .ok [.connect (some [7, 8]) Toy.pkA]) ∧
    Misread Toy.cconA (Toy.cconA ++ Toy.cackA) ∧ Misread Toy.cconA (Toy.cconA.take 100) := by
  obtain ⟨h1, h2⟩ := C66_merged_connect (env := Toy.env true) Toy.lawful (epk := Toy.xpub [1]) (pk := Toy.pkA) (p := [0, 7, 8])
    (sig := Toy.cr.edSign Toy.seedA (connectFrame (Toy.xpub [1]) Toy.pkA [0, 7, 8])) (z := Toy.cackA)
    (sl := Toy.csB (Toy.layer0 [2] none)) (by decide +kernel) (by decide +kernel) (by decide) (by decide +kernel)
    (by decide +kernel) (.inl rfl)
  refine ⟨_, ?_, h2.trans ?_, ⟨.inr (List.prefix_append _ _), by decide +kernel⟩,
    ⟨.inl (List.take_prefix _ _), by decide +kernel⟩⟩
  · rw [← List.append_assoc] at h1
    exact h1
  · exact Prod.ext (by decide +kernel) (by decide +kernel)

/-- The last byte of a user message of toy party A is missing: this ends the session of party B. -/
example : (Toy.csB Toy.b4).readBin (Toy.env true) ((cipherOf Toy.cr Toy.key 0 [7]).take 74) =
      (Toy.csB { Toy.b4 with status := .fail }, .err .failToDecryptData) ∧
    Misread (cipherOf Toy.cr Toy.key 0 [7]) ((cipherOf Toy.cr Toy.key 0 [7]).take 74) ∧
    ∀ q, (cipherOf Toy.cr Toy.key 0 [7]).take 74 ≠ aeadSeal Toy.cr Toy.key q := by
  refine ⟨Prod.ext (by decide +kernel) (by decide +kernel), ⟨.inl (List.take_prefix _ _), by decide +kernel⟩, fun q h => ?_⟩
  have := decrypt_aeadSeal (env := Toy.env true) Toy.lawful Toy.key q
  rw [show (Toy.env true).cr = Toy.cr from rfl, ← h] at this
  have h2 : decrypt (Toy.env true) Toy.key ((cipherOf Toy.cr Toy.key 0 [7]).take 74) = .err .failToDecryptData := by decide +kernel
  rw [h2] at this
  simp at this

/-- The stream of toy party A, its last two messages run together. -/
example : Veiled Toy.cr (some Toy.key) ∧ (∀ x ∈ [Toy.cconA, Toy.cackA, cipherOf Toy.cr Toy.key 0 [7]], WireMsg Toy.cr (some Toy.key) x) ∧
    (∀ y ∈ [Toy.cconA, Toy.cackA ++ cipherOf Toy.cr Toy.key 0 [7]], y ≠ []) ∧
    [Toy.cconA, Toy.cackA, cipherOf Toy.cr Toy.key 0 [7]].flatten.length < 2 ^ 64 ∧
    [Toy.cconA, Toy.cackA ++ cipherOf Toy.cr Toy.key 0 [7]].flatten = [Toy.cconA, Toy.cackA, cipherOf Toy.cr Toy.key 0 [7]].flatten ∧
    [Toy.cconA, Toy.cackA ++ cipherOf Toy.cr Toy.key 0 [7]] ≠ [Toy.cconA, Toy.cackA, cipherOf Toy.cr Toy.key 0 [7]] := by
  obtain ⟨h1, h2, h3, h4, -⟩ := Toy.wire
  exact ⟨h1, by simp [h2, h3, h4], by decide +kernel, by decide +kernel, by simp, by simp⟩

end Pkstl
