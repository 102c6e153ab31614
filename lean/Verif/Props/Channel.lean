import Verif.Props.Agreement
import Verif.Props.Serde
import Verif.Props.Writer
/- C61: what is handed over was written by the peer, whatever the network does. -/
namespace Pkstl
open Spec

variable {M : Type} {env : Env} {f f' : Features}

theorem writeBin_ok_secret {s s' : SecureLayer} {d : Bytes} {w w' : BufW} (h : s.writeBin env d w = (s', w', .ok ())) :
    ∃ k, s.minimal.secret = some k := by
  have hw : (s.minimal.writeMessage env (s.compress env.cr d) w).2.2 = .ok () := congrArg (·.2.2) h
  rcases writeMessage_cases env s.minimal (s.compress env.cr d) w with ⟨-, he⟩ | ⟨_, _, -, he⟩ | ⟨-, -, he⟩ | ⟨-, k, hk, -⟩
  · rw [he] at hw; simp at hw
  · rw [he] at hw; simp at hw
  · rw [he] at hw; simp at hw
  · exact ⟨k, hk⟩

/-- A user message that was written: its content, compressed, travels under some number, sealed with the session key. -/
theorem wroteUser_sealed (law : env.cr.Lawful) {st : CStart} {h : List (CEvent M)} {sl : SecureLayer}
    (hr : CRun env f st h sl) {e : CEvent M} (he : e ∈ h) (hu : e.writesUser = true) :
    ∃ k n lvl d, sl.minimal.secret = some k ∧ n < 2 ^ 64 ∧ Content e d ∧ ∀ w w', e.wroteUser = some (w, w') → 16 < w.cap →
      w'.stream = w.stream ++ cipherOf env.cr k n (env.cr.deflate lvl d) := by
  obtain ⟨h1, h2, rfl⟩ := List.append_of_mem he
  obtain ⟨s1, s2, hr1, hs2, hr2, ⟨op, he1, hop⟩ | ⟨he1, -⟩⟩ := hr.at rfl
  swap
  · subst he1; simp [CEvent.writesUser] at hu
  have stable : ∀ k, s1.minimal.secret = some k → sl.minimal.secret = some k := by
    intro k hk
    obtain ⟨⟨l, hlr, -⟩, -⟩ := hr1.lower
    obtain ⟨l1, hl1, -⟩ := cstep_lower (f := f) hr1.wf op
    obtain ⟨l2, hl2, -⟩ := CSteps.lower hr2 hs2
    subst hop
    exact (C14_secret_stable hlr (hl1.trans hl2)).2 k hk
  have hn : s1.minimal.nextNonceSent < 2 ^ 64 := hr1.wf.sent
  subst he1
  have main : ∀ d w, (s1.writeBin env d w).2.2 = .ok () → ∃ k, sl.minimal.secret = some k ∧ (16 < w.cap →
      (s1.writeBin env d w).2.1.stream = w.stream ++
        cipherOf env.cr k s1.minimal.nextNonceSent (env.cr.deflate (levelFor s1.minimal.config d) d)) := by
    intro d w hok
    rcases hw : s1.writeBin env d w with ⟨s', w', r⟩
    rw [hw] at hok
    dsimp only at hok
    subst hok
    obtain ⟨k, hk⟩ := writeBin_ok_secret hw
    refine ⟨k, stable k hk, fun hcap => ?_⟩
    obtain ⟨-, k', hk', h'⟩ := C46_ok_written_bin law hcap hw
    obtain rfl : k = k' := by rw [hk] at hk'; exact Option.some.inj hk'
    exact h'
  cases op with
  | writeBin d w =>
    simp only [cstep, CEvent.writesUser, decide_eq_true_eq] at hu
    obtain ⟨k, hk, hst⟩ := main d w hu
    refine ⟨k, _, levelFor s1.minimal.config d, d, hk, hn, ?_, ?_⟩
    · simp only [cstep, hu]; exact .bin
    · intro v v' hv hcap
      simp only [cstep, hu, CEvent.wroteUser, Option.some.injEq, Prod.mk.injEq] at hv
      obtain ⟨rfl, rfl⟩ := hv
      exact hst hcap
  | writeSer c m w =>
    simp only [cstep, CEvent.writesUser, decide_eq_true_eq] at hu
    cases hs : serialize c m s1.minimal.config.messageFormat with
    | err e => unfold SecureLayer.writeSer at hu; simp [hs] at hu
    | panic p => unfold SecureLayer.writeSer at hu; simp [hs] at hu
    | ok b =>
      have hb : s1.writeSer env c m w = s1.writeBin env b w := by unfold SecureLayer.writeSer; rw [hs]; rfl
      obtain ⟨body, henc, rfl⟩ := C44_serialize.mp hs
      rw [hb] at hu
      obtain ⟨k, hk, hst⟩ := main _ w hu
      refine ⟨k, _, levelFor s1.minimal.config (formatTag s1.minimal.config.messageFormat ++ body),
        formatTag s1.minimal.config.messageFormat ++ body, hk, hn, ?_, ?_⟩
      · simp only [cstep, hb, hu]; exact .ser henc
      · intro v v' hv hcap
        simp only [cstep, hb, hu, CEvent.wroteUser, Option.some.injEq, Prod.mk.injEq] at hv
        obtain ⟨rfl, rfl⟩ := hv
        exact hst hcap
  | _ => simp [cstep, CEvent.writesUser] at hu

theorem exists_forall₂ {α β : Type} {R : α → β → Prop} {l : List α} (h : ∀ x ∈ l, ∃ y, R x y) :
    ∃ l', List.Forall₂ R l l' := by
  induction l with
  | nil => exact ⟨[], .nil⟩
  | cons x l ih =>
    obtain ⟨y, hy⟩ := h x (by simp)
    obtain ⟨l', hl⟩ := ih fun z hz => h z (by simp [hz])
    exact ⟨y :: l', .cons hy hl⟩

theorem forall₂_mem_left {α β : Type} {R : α → β → Prop} {l : List α} {l' : List β} (h : List.Forall₂ R l l') {x : α}
    (hx : x ∈ l) : ∃ y ∈ l', R x y := by
  induction h with
  | nil => simp at hx
  | cons h _ ih =>
    rcases List.mem_cons.mp hx with rfl | hx
    · exact ⟨_, by simp, h⟩
    · obtain ⟨y, hy, hr⟩ := ih hx
      exact ⟨y, by simp [hy], hr⟩

theorem subperm_map {α β : Type} (g : α → β) {l l' : List α} (h : l.Subperm l') : (l.map g).Subperm (l'.map g) := by
  obtain ⟨m, h1, h2⟩ := h
  exact ⟨m.map g, h1.map g, h2.map g⟩

/-- The data that travel as `q`. -/
def unpack (cr : Crypto) (q : Bytes) : Option Bytes := if q = [] then none else cr.inflate q

theorem unpacked_eq {cr : Crypto} {q : Bytes} {d : Option Bytes} (h : Unpacked cr q d) : d = unpack cr q := by
  rcases h with ⟨rfl, rfl⟩ | ⟨h, b, h1, rfl⟩
  · rfl
  · simp [unpack, h, h1]

theorem carries_shows {cr : Crypto} {sec : Option SecretKey} {h : List (CEvent M)} {Ns : List (List (Nat × Bytes))}
    (hc : List.Forall₂ (CCarries cr f sec) h Ns) :
    ∃ xss, List.Forall₂ (Shows f) h xss ∧ xss.flatMap binUsers = Ns.flatten.map fun x => unpack cr x.2 := by
  induction hc with
  | nil => exact ⟨[], .nil, rfl⟩
  | @cons e N h Ns he _ ih =>
    obtain ⟨xss, h1, h2⟩ := ih
    obtain ⟨⟨xs, h3, h4⟩, -⟩ := he
    refine ⟨xs :: xss, .cons h3 h1, ?_⟩
    rw [List.flatMap_cons, h2, List.flatten_cons, List.map_append]
    congr 1
    clear h3 h1 h2
    generalize binUsers xs = us at h4
    induction h4 with
    | nil => rfl
    | cons hu _ ih => rw [List.map_cons, ← ih, unpacked_eq hu]

variable {stA : CStart} {hA : List (CEvent M)} {a : SecureLayer} {pk : Bytes}

/-- **C61.** If what is sealed with the session key was written by layers that have this key, then the user data handed over
by `read_bin` and `read` in the whole life of a layer and its clones are data that were written, each at most as often as it
was written: the network can drop, reorder, repeat and insert, but change nothing and add nothing. -/
theorem C61_origin (law : env.cr.Lawful) (ra : CRun env f stA hA a)
    (hb : env.overflowChecks = true ∨ (cinputs hA).length < 2 ^ 64) {Ws : List (List (CEvent M))}
    (hW : ∀ h ∈ Ws, ∃ f' st sl, CRun env f' st h sl ∧ sl.minimal.secret = a.minimal.secret)
    (hseal : Sealed env.cr a.minimal.secret (cinputs hA) Ws) :
    ∃ xss ds, List.Forall₂ (Shows f) hA xss ∧ List.Forall₂ Content (Ws.flatten.filter CEvent.writesUser) ds ∧
      (xss.flatMap binUsers).Subperm (ds.map some) := by
  have hZ : ∀ e ∈ Ws.flatten.filter CEvent.writesUser, ∃ z : Nat × Bytes × Bytes, Content e z.2.2 ∧
      (∃ lvl, z.2.1 = env.cr.deflate lvl z.2.2) ∧ z.1 < 2 ^ 64 ∧ ∃ k, a.minimal.secret = some k ∧
      ∀ w w', e.wroteUser = some (w, w') → 16 < w.cap → w'.stream = w.stream ++ cipherOf env.cr k z.1 z.2.1 := by
    intro e he
    obtain ⟨he, hu⟩ := List.mem_filter.mp he
    obtain ⟨h, hh, he⟩ := List.mem_flatten.mp he
    obtain ⟨f', st, sl, hr, hs⟩ := hW h hh
    obtain ⟨k, n, lvl, d, h1, h2, h3, h4⟩ := wroteUser_sealed law hr he hu
    exact ⟨(n, _, d), h3, ⟨lvl, rfl⟩, h2, k, hs ▸ h1, h4⟩
  obtain ⟨Z, hZ⟩ := exists_forall₂ hZ
  obtain ⟨Ns, h1, h2⟩ := C55_only_written ra hb (Z.map fun z => (z.1, z.2.1)) (by
    intro k n q hk hn hin
    obtain ⟨h, hh, e, he, w, w', hw, hcap, hst⟩ := hseal k n q hk hn hin
    have hu : e.writesUser = true := by
      cases e with
      | writeBin d v v' r => rcases r with ⟨⟩ | _ | _ <;> simp [CEvent.wroteUser, CEvent.writesUser] at hw ⊢
      | writeSer c m v v' r => rcases r with ⟨⟩ | _ | _ <;> simp [CEvent.wroteUser, CEvent.writesUser] at hw ⊢
      | _ => simp [CEvent.wroteUser] at hw
    obtain ⟨z, hz, -, -, hzn, k', hk', hz'⟩ := forall₂_mem_left hZ
      (List.mem_filter.mpr ⟨List.mem_flatten.mpr ⟨h, hh, he⟩, hu⟩)
    obtain rfl : k = k' := by rw [hk] at hk'; exact Option.some.inj hk'
    have := hz' w w' hw hcap
    rw [hst, List.append_cancel_left_eq] at this
    obtain ⟨rfl, rfl⟩ := cipherOf_inj law hn hzn this
    exact List.mem_map.mpr ⟨z, hz, rfl⟩)
  obtain ⟨xss, h3, h4⟩ := carries_shows h1
  refine ⟨xss, Z.map fun z => z.2.2, h3, ?_, ?_⟩
  · rw [List.forall₂_map_right_iff]
    exact hZ.imp fun _ _ h => h.1
  · have := subperm_map (fun x : Nat × Bytes => unpack env.cr x.2) h2
    rw [← h4, List.map_map] at this
    rw [List.map_map]
    refine (List.map_congr_left fun z hz => ?_) ▸ this
    obtain ⟨e, -, -, ⟨lvl, hl⟩, -⟩ := forall₂_mem_right hZ hz
    simp only [Function.comp, unpack, hl]
    rw [if_neg (law.deflate_ne_nil _ _), law.inflate_deflate]

/-- **C61, an honest peer under active attack.** A layer expects the key of a peer that uses it in one session.  Assume that
signatures under that key and seals under the session key are not forged.  Then both sides have the same secret, and the
user data handed over are data that the peer wrote or that this layer wrote itself (both directions share key and numbering,
see C25), each at most as often as it was written. -/
theorem C61_peer (law : env.cr.Lawful) (ra : CRun env f stA hA a) (hexp : stA.expected = some pk)
    {stB : CStart} {hB : List (CEvent M)} {b : SecureLayer} (rb : CRun env f' stB hB b)
    (hun : Unforged env.cr pk (cinputs hA) fun st h sl => st = stB ∧ h = hB ∧ sl = b)
    (hcol : ∀ inc ∈ cinputs hB, ∀ e k, SignedConnect env.cr inc e k →
      env.cr.sha256 e = env.cr.sha256 (env.cr.xPublic stA.random) → e = env.cr.xPublic stA.random)
    (hb : env.overflowChecks = true ∨ (cinputs hA).length < 2 ^ 64)
    (hseal : Sealed env.cr a.minimal.secret (cinputs hA) [hB, hA]) (hu : Kind.user ∈ ckinds hA) :
    a.minimal.secret.isSome = true ∧ b.minimal.secret = a.minimal.secret ∧
    ∃ xss ds, List.Forall₂ (Shows f) hA xss ∧ List.Forall₂ Content ((hB ++ hA).filter CEvent.writesUser) ds ∧
      (xss.flatMap binUsers).Subperm (ds.map some) := by
  obtain ⟨h1, h2⟩ := C59_shared law ra hexp rb hun hcol (.inr hu)
  refine ⟨h1, h2, ?_⟩
  have := C61_origin law ra hb (Ws := [hB, hA]) (by
    intro h hh
    simp only [List.mem_cons, List.not_mem_nil, or_false] at hh
    rcases hh with rfl | rfl
    · exact ⟨_, _, _, rb, h2⟩
    · exact ⟨_, _, _, ra, rfl⟩) hseal
  simpa using this

/-! ### Values -/

theorem reads_unique {c : Codec M} (hc : c.Lawful) {fmt : MessageFormat} {m m' : M} {body : Bytes}
    (he : Encodes c fmt m body) (hr : Reads f c (formatTag fmt ++ body) m') : m' = m := by
  obtain ⟨fmt', body', -, h, hd⟩ := hr
  obtain ⟨h1, rfl⟩ := List.append_inj h (by rw [formatTag_length, formatTag_length])
  obtain rfl : fmt = fmt' := by cases fmt <;> cases fmt' <;> first | rfl | exact absurd h1 (by decide)
  cases decodes_of_encodes hc he with
  | json h => cases hd with | json h' => rw [h] at h'; exact (Option.some.inj h').symm
  | cbor h => cases hd with | cbor h' => rw [h] at h'; exact (Option.some.inj h').symm
  | bincode h => cases hd with | bincode h' => rw [h] at h'; exact (Option.some.inj h').symm

/-- The value of a user message, if it can be deserialised. -/
def valueOf (f : Features) (c : Codec M) (d : Option Bytes) : Option (Option M) :=
  match deserializeOpt f c d with
  | .ok m => some m
  | _ => none

theorem valueOf_eq {c : Codec M} {d : Option Bytes} {m : Option M} : valueOf f c d = some m ↔ ReadsOpt f c d m := by
  rw [← deserializeOpt_iff, valueOf]
  split <;> simp_all

theorem shows_values {c : Codec M} {e : CEvent M} {xs : List BinMessage} (hs : e.SerOnly c) (h : Shows f e xs) :
    (binUsers xs).map (valueOf f c) = e.values.map some := by
  cases h with
  | bin =>
    rw [show binUsers xs = [] from List.filterMap_eq_nil_iff.mpr fun m hm => ?_]
    · rfl
    · cases m with
      | message d => exact absurd (List.mem_map.mpr ⟨_, hm, rfl⟩) hs
      | _ => rfl
  | @ser c' b xs ys h =>
    obtain rfl : c' = c := hs
    simp only [CEvent.values, binUsers]
    induction h with
    | nil => rfl
    | cons h _ ih =>
      cases h with
      | connect => simpa using ih
      | ack => simpa using ih
      | message h => simpa [valueOf_eq.mpr h] using ih
  | none h =>
    cases e with
    | readSer c' b r =>
      cases r with
      | ok ys =>
        have : ys = [] := by simpa [CEvent.kinds] using h
        subst this
        rfl
      | _ => rfl
    | _ => rfl

theorem shows_values_all {c : Codec M} {h : List (CEvent M)} {xss : List (List BinMessage)} (hs : ∀ e ∈ h, e.SerOnly c)
    (hsh : List.Forall₂ (Shows f) h xss) : (xss.flatMap binUsers).map (valueOf f c) = (h.flatMap CEvent.values).map some := by
  induction hsh with
  | nil => rfl
  | cons h1 _ ih =>
    rw [List.flatMap_cons, List.flatMap_cons, List.map_append, List.map_append, ih fun e he => hs e (by simp [he]),
      shows_values (hs _ (by simp)) h1]

theorem contents_values {c : Codec M} (hc : c.Lawful) {h : List (CEvent M)} {ds : List Bytes} (hs : ∀ e ∈ h, e.SerOnly c)
    (hd : List.Forall₂ Content (h.filter CEvent.writesUser) ds) :
    ((ds.map some).filterMap (valueOf f c)).Sublist ((h.filterMap CEvent.wroteValue).map some) := by
  induction h generalizing ds with
  | nil => cases hd; simp
  | cons e h ih =>
    have hs' : ∀ e ∈ h, e.SerOnly c := fun e he => hs e (by simp [he])
    by_cases hu : e.writesUser = true
    · rw [List.filter_cons_of_pos hu] at hd
      cases hd with
      | @cons _ d _ ds hcd hd =>
        have h0 := hs e (by simp)
        cases hcd with
        | bin => exact absurd rfl h0
        | @ser c' m w w' fmt body henc =>
          obtain rfl : c' = c := h0
          simp only [List.map_cons, List.filterMap_cons, CEvent.wroteValue]
          cases hv : valueOf f c' (some (formatTag fmt ++ body)) with
          | none => exact (ih hs' hd).cons _
          | some x =>
            cases valueOf_eq.mp hv with
            | some hr =>
              rw [reads_unique hc henc hr]
              exact (ih hs' hd).cons_cons _
    · rw [List.filter_cons_of_neg hu] at hd
      refine (ih hs' hd).trans (List.Sublist.map _ ?_)
      rw [List.filterMap_cons]
      split
      · exact .refl _
      · exact List.sublist_cons_self _ _

/-- **C61, values.** If only the serde API is used for user messages, with one codec whose decoders undo its encoders, then
the values handed over by `read` are values that were written, each at most as often as it was written. -/
theorem C61_values (law : env.cr.Lawful) (ra : CRun env f stA hA a)
    (hb : env.overflowChecks = true ∨ (cinputs hA).length < 2 ^ 64) {Ws : List (List (CEvent M))}
    (hW : ∀ h ∈ Ws, ∃ f' st sl, CRun env f' st h sl ∧ sl.minimal.secret = a.minimal.secret)
    (hseal : Sealed env.cr a.minimal.secret (cinputs hA) Ws) {c : Codec M} (hc : c.Lawful)
    (hA' : ∀ e ∈ hA, e.SerOnly c) (hW' : ∀ h ∈ Ws, ∀ e ∈ h, e.SerOnly c) :
    (hA.flatMap CEvent.values).Subperm ((Ws.flatten.filterMap CEvent.wroteValue).map some) := by
  obtain ⟨xss, ds, h1, h2, h3⟩ := C61_origin law ra hb hW hseal
  have h4 := contents_values (f := f) hc (fun e he => by
    obtain ⟨h, hh, he⟩ := List.mem_flatten.mp he
    exact hW' h hh e he) h2
  have h5 : (xss.flatMap binUsers).filterMap (valueOf f c) = hA.flatMap CEvent.values := by
    have := congrArg (List.filterMap id) (shows_values_all hA' h1)
    simpa [List.filterMap_map] using this
  obtain ⟨l, hp, hsub⟩ := h3
  have h6 : ((xss.flatMap binUsers).filterMap (valueOf f c)).Subperm ((ds.map some).filterMap (valueOf f c)) :=
    ⟨l.filterMap _, hp.filterMap _, hsub.filterMap _⟩
  rw [h5] at h6
  exact h6.trans h4.subperm

/-- Party A expects B, B expects nobody, the network hands over B's messages, and the user message twice: the hypotheses of
`C61_origin` and `C61_peer` hold. -/
example (oc : Bool) : ∃ (hA hB : List (CEvent Unit)) (a b : SecureLayer),
    CRun (Toy.env oc) f { Toy.cstA with expected := some Toy.pkB } hA a ∧ CRun (Toy.env oc) f Toy.cstB hB b ∧
    Unforged Toy.cr Toy.pkB (cinputs hA) (fun st h sl => st = Toy.cstB ∧ h = hB ∧ sl = b) ∧
    (∀ inc ∈ cinputs hB, ∀ e k, SignedConnect Toy.cr inc e k → Toy.cr.sha256 e = Toy.cr.sha256 (Toy.xpub [1]) →
      e = Toy.xpub [1]) ∧
    (cinputs hA).length < 2 ^ 64 ∧ Sealed Toy.cr a.minimal.secret (cinputs hA) [hB, hA] ∧ Kind.user ∈ ckinds hA ∧
    b.minimal.secret = a.minimal.secret ∧
    .readBin (cipherOf Toy.cr Toy.key 0 [0, 5]) (.ok [.message (some [5])]) ∈ hA ∧
    (cinputs hA).count (cipherOf Toy.cr Toy.key 0 [0, 5]) = 2 := by
  -- party B
  have s1 : ((Toy.csB (Toy.layer0 [2] none)).readBin (Toy.env oc) Toy.cconA).1 = Toy.csB Toy.b1 := by
    cases oc <;> decide +kernel
  have rb0 : CRun (M := Unit) (Toy.env oc) f Toy.cstB [] (Toy.csB (Toy.layer0 [2] none)) := .init rfl
  have rb1 := rb0.call (.readBin Toy.cconA)
  simp only [cstep, s1] at rb1
  obtain ⟨w1, c1, c2, -⟩ := writeConnectBin_good (env := Toy.env oc) (sl := Toy.csB Toy.b1)
    (rem := .validConnectMsgReceived) rfl rfl none (w := Toy.sink) rfl
  have rb2 := rb1.call (.connectBin none Toy.sink)
  simp only [cstep, c1] at rb2
  replace rb2 : CRun (M := Unit) (Toy.env oc) f Toy.cstB _ (Toy.csB Toy.b2) := rb2
  obtain ⟨w2, k1, k2, -⟩ := writeAckBin_good (env := Toy.env oc) (sl := Toy.csB Toy.b2) rb2.wf rfl rfl rfl none
    (w := Toy.sink) rfl
  have rb3 := rb2.call (.ackBin none Toy.sink)
  rw [show cstep (Toy.env oc) f (Toy.csB Toy.b2) (.ackBin none Toy.sink : COp Unit) =
    (Toy.csB Toy.b3, .ackBin none Toy.sink w2 (.ok ())) by simp only [cstep, k1]; rfl] at rb3
  have s4 : ((Toy.csB Toy.b3).readBin (Toy.env oc) Toy.cackA).1 = Toy.csB Toy.b4 := by cases oc <;> decide +kernel
  have rb4 := rb3.call (.readBin Toy.cackA)
  simp only [cstep, s4] at rb4
  obtain ⟨w3, u1, u2, -⟩ := writeBin_good (env := Toy.env oc) (sl := Toy.csB Toy.b4) Toy.lawful rfl rfl [5]
    (w := Toy.sink) rfl (by decide) (by decide)
  have rb5 := rb4.call (.writeBin [5] Toy.sink)
  simp only [cstep, u1] at rb5
  -- party A
  have t2 : ((Toy.csA { Toy.a1 with peerSigPubkey := some Toy.pkB }).readBin (Toy.env oc) Toy.cconB).1 =
      Toy.csA Toy.a2 := by cases oc <;> decide +kernel
  have t3 : ((Toy.csA Toy.a2).readBin (Toy.env oc) Toy.cackB).1 = Toy.csA Toy.a3 := by cases oc <;> decide +kernel
  have ra0 : CRun (M := Unit) (Toy.env oc) f { Toy.cstA with expected := some Toy.pkB } []
    (Toy.csA (Toy.layer0 [1] (some Toy.pkB))) := .init rfl
  have step : ∀ {h : List (CEvent Unit)} {sl sl'} (op : COp Unit), (cstep (Toy.env oc) f sl op).1 = sl' →
      CRun (Toy.env oc) f { Toy.cstA with expected := some Toy.pkB } h sl →
      CRun (Toy.env oc) f { Toy.cstA with expected := some Toy.pkB } (h ++ [(cstep (Toy.env oc) f sl op).2]) sl' :=
    fun op he hr => he ▸ hr.call op
  have ra1 := step (sl' := Toy.csA { Toy.a1 with peerSigPubkey := some Toy.pkB }) (.connectBin (some [7, 8]) Toy.sink) rfl ra0
  have ra2 := step (sl' := Toy.csA Toy.a2) (.readBin Toy.cconB) (by simp only [cstep]; exact t2) ra1
  have ra3 := step (sl' := Toy.csA Toy.a3) (.readBin Toy.cackB) (by simp only [cstep]; exact t3) ra2
  have ra4 := step (sl' := Toy.csA Toy.a4) (.ackBin (some []) Toy.sink) rfl ra3
  have t5 : (Toy.csA Toy.a4).readBin (Toy.env oc) (cipherOf Toy.cr Toy.key 0 [0, 5]) =
      (Toy.csA { Toy.a4 with nextNonceExpected := 1 }, .ok [.message (some [5])]) :=
    Prod.ext (by cases oc <;> decide +kernel) (by cases oc <;> decide +kernel)
  have t6 : ((Toy.csA { Toy.a4 with nextNonceExpected := 1 }).readBin (Toy.env oc) (cipherOf Toy.cr Toy.key 0 [0, 5])).1 =
      Toy.csA { Toy.a4 with nextNonceExpected := 1 } := by cases oc <;> decide +kernel
  have ra5 := ra4.call (.readBin (cipherOf Toy.cr Toy.key 0 [0, 5]))
  simp only [cstep, t5] at ra5
  have ra6 := ra5.call (.readBin (cipherOf Toy.cr Toy.key 0 [0, 5]))
  simp only [cstep, t6] at ra6
  have hsealed : ∀ n q, (cipherOf Toy.cr Toy.key n q).head? = some 0xE3 := by
    intro n q
    simp only [cipherOf, aeadSeal, xorKeystream, userFrame, frame, List.cons_append, List.mapIdx_cons, List.head?_cons]
    rfl
  have hother : ∀ n q (b : Bytes), b.head? = some 0xE2 → cipherOf Toy.cr Toy.key n q ≠ b := by
    intro n q b hb he
    have := hsealed n q
    rw [he, hb] at this
    exact absurd this (by decide)
  refine ⟨_, _, _, _, ra6, rb5, ?_, ?_, ?_, ?_, ?_, rfl, ?_, ?_⟩
  · intro inc hin body sig hb hv
    refine ⟨_, _, _, ⟨rfl, rfl, rfl⟩, ?_⟩
    have hl : sig.length = 64 := Toy.lawful.edVerify_length _ _ _ hv
    have hin' : inc = Toy.cconB ∨ inc = Toy.cackB ∨ inc = cipherOf Toy.cr Toy.key 0 [0, 5] := by
      simpa [cinputs, cstep, CEvent.input, or_assoc] using hin
    rcases hin' with rfl | rfl | rfl
    · obtain ⟨rfl, -⟩ := List.append_inj' (show _ ++ _ = body ++ sig from hb) (by rw [hl]; exact Toy.pad_length _ _)
      exact ⟨.connectBin none Toy.sink w1 (.ok ()), by simp, Toy.sink, w1, rfl, rfl, _, Toy.pad_length _ _, c2⟩
    · obtain ⟨rfl, -⟩ := List.append_inj' (show _ ++ _ = body ++ sig from hb) (by rw [hl]; exact Toy.pad_length _ _)
      exact ⟨.ackBin none Toy.sink w2 (.ok ()), by simp, Toy.sink, w2, rfl, rfl, _, Toy.pad_length _ _, k2⟩
    · exfalso
      have h1 : body = (cipherOf Toy.cr Toy.key 0 [0, 5]).take ((cipherOf Toy.cr Toy.key 0 [0, 5]).length - 64) := by
        rw [hb]; simp [hl]
      have h2 : sig = (cipherOf Toy.cr Toy.key 0 [0, 5]).drop ((cipherOf Toy.cr Toy.key 0 [0, 5]).length - 64) := by
        rw [hb]; simp [hl]
      rw [h1, h2] at hv
      exact absurd hv (by decide +kernel)
  · intro inc hin e k hsc _
    have hin' : inc = Toy.cconA ∨ inc = Toy.cackA := by simpa [cinputs, cstep, CEvent.input] using hin
    rcases hin' with rfl | rfl
    · rw [← hsc.2.2.1]
      decide +kernel
    · exact absurd hsc.2.1 (by decide +kernel)
  · simp [cinputs, CEvent.input]
  · intro k n q hk hn hin
    obtain rfl : Toy.key = k := Option.some.inj hk
    have hin' : cipherOf Toy.cr Toy.key n q = Toy.cconB ∨ cipherOf Toy.cr Toy.key n q = Toy.cackB ∨
        cipherOf Toy.cr Toy.key n q = cipherOf Toy.cr Toy.key 0 [0, 5] := by
      simpa [cinputs, cstep, CEvent.input, or_assoc] using hin
    rcases hin' with h | h | h
    · exact absurd h (hother _ _ _ (by decide +kernel))
    · exact absurd h (hother _ _ _ (by decide +kernel))
    · rw [h]
      exact ⟨_, List.mem_cons_self, .writeBin [5] Toy.sink w3 (.ok ()), by simp, Toy.sink, w3, rfl, by decide, u2⟩
  · simp [ckinds, CEvent.kinds, BinMessage.kind]
  · simp
  · simp only [cinputs, CEvent.input, List.flatMap_append, List.flatMap_cons, List.flatMap_nil, List.append_nil,
      List.nil_append]
    decide +kernel

/-- Party A writes the value 7 as CBOR, party B is handed the value: the hypotheses of `C61_values` hold. -/
example (oc : Bool) : ∃ (hA hB : List (CEvent UInt8)) (a b : SecureLayer),
    CRun (Toy.env oc) ⟨true, true, true⟩ Toy.cstA hA a ∧ CRun (Toy.env oc) ⟨false, true, true⟩ Toy.cstB hB b ∧
    a.minimal.secret = b.minimal.secret ∧ Sealed Toy.cr b.minimal.secret (cinputs hB) [hA] ∧
    (∀ e ∈ hA, e.SerOnly Toy.codec) ∧ (∀ e ∈ hB, e.SerOnly Toy.codec) ∧ (cinputs hB).length < 2 ^ 64 ∧
    some 7 ∈ hB.flatMap CEvent.values := by
  -- party A
  have step : ∀ {st : CStart} {f : Features} {h : List (CEvent UInt8)} {sl sl'} (op : COp UInt8),
      (cstep (Toy.env oc) f sl op).1 = sl' → CRun (Toy.env oc) f st h sl →
      CRun (Toy.env oc) f st (h ++ [(cstep (Toy.env oc) f sl op).2]) sl' :=
    fun op he hr => he ▸ hr.call op
  have t2 : (Toy.csA Toy.a1).readBin (Toy.env oc) Toy.cconB = (Toy.csA Toy.a2, .ok [.connect none Toy.pkB]) :=
    Prod.ext (by cases oc <;> decide +kernel) (by cases oc <;> decide +kernel)
  have t3 : (Toy.csA Toy.a2).readBin (Toy.env oc) Toy.cackB = (Toy.csA Toy.a3, .ok [.ack none]) :=
    Prod.ext (by cases oc <;> decide +kernel) (by cases oc <;> decide +kernel)
  have ra0 : CRun (M := UInt8) (Toy.env oc) ⟨true, true, true⟩ Toy.cstA [] (Toy.csA (Toy.layer0 [1] none)) := .init rfl
  have ra1 := step (sl' := Toy.csA Toy.a1) (.connectBin (some [7, 8]) Toy.sink) rfl ra0
  have ra2 := ra1.call (.readBin Toy.cconB)
  simp only [cstep, t2] at ra2
  have ra3 := ra2.call (.readBin Toy.cackB)
  simp only [cstep, t3] at ra3
  have ra4 := step (sl' := Toy.csA Toy.a4) (.ackBin (some []) Toy.sink) rfl ra3
  have ra5 := step (sl' := Toy.cborA Toy.a4) (.config { Config.default with messageFormat := .cbor }) rfl ra4
  obtain ⟨w3, u1, u2, -⟩ := writeBin_good (env := Toy.env oc) (sl := Toy.cborA Toy.a4) Toy.lawful rfl rfl
    [0, 0, 0, 3, 2, 7] (w := Toy.sink) rfl (by decide) (by decide)
  have ra6 := ra5.call (.writeSer Toy.codec 7 Toy.sink)
  rw [show cstep (Toy.env oc) ⟨true, true, true⟩ (Toy.cborA Toy.a4) (.writeSer Toy.codec 7 Toy.sink) =
    (_, .writeSer Toy.codec 7 Toy.sink w3 (.ok ())) by
      simp only [cstep, show (Toy.cborA Toy.a4).writeSer (Toy.env oc) Toy.codec 7 Toy.sink = _ from u1]; rfl] at ra6
  -- party B
  have s1 : (Toy.csB (Toy.layer0 [2] none)).readBin (Toy.env oc) Toy.cconA =
      (Toy.csB Toy.b1, .ok [.connect (some [7, 8]) Toy.pkA]) :=
    Prod.ext (by cases oc <;> decide +kernel) (by cases oc <;> decide +kernel)
  have s4 : (Toy.csB Toy.b3).readBin (Toy.env oc) Toy.cackA = (Toy.csB Toy.b4, .ok [.ack (some [])]) :=
    Prod.ext (by cases oc <;> decide +kernel) (by cases oc <;> decide +kernel)
  have s5 : (Toy.csB Toy.b4).readSer (Toy.env oc) ⟨false, true, true⟩ Toy.codec
      (cipherOf Toy.cr Toy.key 0 [0, 0, 0, 0, 3, 2, 7]) =
      (Toy.csB { Toy.b4 with nextNonceExpected := 1 }, .ok [.message (some 7)]) :=
    Prod.ext (by cases oc <;> decide +kernel) (by cases oc <;> decide +kernel)
  have r0 : CRun (M := UInt8) (Toy.env oc) ⟨false, true, true⟩ Toy.cstB [] (Toy.csB (Toy.layer0 [2] none)) := .init rfl
  have r1 := r0.call (.readBin Toy.cconA)
  simp only [cstep, s1] at r1
  have r2 := step (sl' := Toy.csB Toy.b2) (.connectBin none Toy.sink) rfl r1
  have r3 := step (sl' := Toy.csB Toy.b3) (.ackBin none Toy.sink) rfl r2
  have r4 := r3.call (.readBin Toy.cackA)
  simp only [cstep, s4] at r4
  have r5 := r4.call (.readSer Toy.codec (cipherOf Toy.cr Toy.key 0 [0, 0, 0, 0, 3, 2, 7]))
  simp only [cstep, s5] at r5
  have hsealed : ∀ n q, (cipherOf Toy.cr Toy.key n q).head? = some 0xE3 := by
    intro n q
    simp only [cipherOf, aeadSeal, xorKeystream, userFrame, frame, List.cons_append, List.mapIdx_cons, List.head?_cons]
    rfl
  have hother : ∀ n q (b : Bytes), b.head? = some 0xE2 → cipherOf Toy.cr Toy.key n q ≠ b := by
    intro n q b hb he
    have := hsealed n q
    rw [he, hb] at this
    exact absurd this (by decide)
  refine ⟨_, _, _, _, ra6, r5, rfl, ?_, ?_, ?_, ?_, ?_⟩
  · intro k n q hk hn hin
    obtain rfl : Toy.key = k := Option.some.inj hk
    have hin' : cipherOf Toy.cr Toy.key n q = Toy.cconA ∨ cipherOf Toy.cr Toy.key n q = Toy.cackA ∨
        cipherOf Toy.cr Toy.key n q = cipherOf Toy.cr Toy.key 0 [0, 0, 0, 0, 3, 2, 7] := by
      simpa [cinputs, cstep, CEvent.input, or_assoc] using hin
    rcases hin' with h | h | h
    · exact absurd h (hother _ _ _ (by decide +kernel))
    · exact absurd h (hother _ _ _ (by decide +kernel))
    · rw [h]
      exact ⟨_, List.mem_cons_self, .writeSer Toy.codec 7 Toy.sink w3 (.ok ()), by simp, Toy.sink, w3, rfl, by decide,
        u2⟩
  · simp [CEvent.SerOnly, CEvent.kinds, BinMessage.kind, cstep]
  · simp [CEvent.SerOnly, CEvent.kinds, BinMessage.kind]
  · simp [cinputs, CEvent.input]
  · simp [CEvent.values]

end Pkstl
