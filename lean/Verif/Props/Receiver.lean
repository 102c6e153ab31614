import Verif.Spec.Receiver
import Verif.Props.Channel
/- C62: what a negotiated layer makes of user messages that the network drops, repeats and reorders. -/
namespace Pkstl
open Spec

variable {M : Type} {env : Env} {f f' : Features}

/-! ## The numbers that a layer of the complete mode knows -/

theorem LowersAll.regular {cr : Crypto} {h : List (CEvent M)} {l : List Event} (hlow : LowersAll cr f h l)
    (hok : ∀ e ∈ h, e.readOk = true) : ∀ x ∈ l, x.regular := by
  induction hlow with
  | nil => simp
  | @snoc h l es e hl he ih =>
    intro x hx
    rcases List.mem_append.mp hx with hx | hx
    · exact ih (fun e he => hok e (by simp [he])) x hx
    · exact he.reg (hok e (by simp)) x hx

/-- A call other than a failed `read` hands over all that the calls inside deliver. -/
theorem Lowers.shows_all {cr : Crypto} {e : CEvent M} {es : List Event} (he : Lowers cr f e es) (hok : e.readOk = true) :
    ∃ xs, Shows f e xs ∧ List.Forall₂ (Opens cr) (deliveries es) xs := by
  have hquiet : e.input = [] → e.kinds = [] → ∃ xs, Shows f e xs ∧ List.Forall₂ (Opens cr) (deliveries es) xs := by
    intro hi hk
    refine ⟨[], .none hk, ?_⟩
    have : deliveries es = [] := by
      unfold deliveries
      rw [List.flatMap_eq_nil_iff]
      exact he.quiet hi
    rw [this]
    exact .nil
  cases e with
  | readBin b r =>
    cases r with
    | ok ms => exact ⟨ms, .bin, he.bin _ _ rfl⟩
    | _ => simp [CEvent.readOk, Res.isOk] at hok
  | readSer c b r =>
    cases r with
    | ok ys =>
      obtain ⟨bs, h1, h2⟩ := he.ser _ _ _ rfl
      exact ⟨bs, .ser (deserializeMsgs_iff.mp h2), h1⟩
    | _ => simp [CEvent.readOk, Res.isOk] at hok
  | _ => exact hquiet rfl rfl

theorem lowers_carries_all {cr : Crypto} {sec : Option SecretKey} {h : List (CEvent M)} {l : List Event}
    (hlow : LowersAll cr f h l) (hok : ∀ e ∈ h, e.readOk = true)
    {Ls : List (List (Nat × Bytes))} (hc : List.Forall₂ (Carries cr sec) l Ls) :
    ∃ Ns, List.Forall₂ (CCarries cr f sec) h Ns ∧ Ns.flatten = Ls.flatten := by
  induction hlow generalizing Ls with
  | nil => cases hc; exact ⟨[], .nil, rfl⟩
  | @snoc h l es e hl he ih =>
    obtain ⟨L1, L2, rfl, hc1, hc2⟩ := forall₂_append_left hc
    obtain ⟨Ns, h1, h2⟩ := ih (fun e he => hok e (by simp [he])) hc1
    obtain ⟨xs, hsh, hxs⟩ := he.shows_all (hok e (by simp))
    refine ⟨Ns ++ [L2.flatten], List.rel_append h1 (.cons ⟨⟨xs, hsh, opens_users hxs (carries_users hc2)⟩, ?_, ?_⟩ .nil), ?_⟩
    · intro x hx
      obtain ⟨l, hl, hxl⟩ := List.mem_flatten.mp hx
      obtain ⟨e', -, hc⟩ := forall₂_mem_right hc2 hl
      exact hc.2.1 x hxl
    · intro hack inc hinc x hx
      obtain ⟨r, es', rfl, hes⟩ := he.direct hsh hxs hack hinc
      cases hc2 with
      | @cons _ L _ L' hcr hc' =>
        have h3 := carries_users hc'
        rw [hes] at h3
        have h3 : L'.flatten = [] := List.map_eq_nil_iff.mp h3.symm
        rw [List.flatten_cons, h3, List.append_nil] at hx
        exact hcr.2.2 _ _ rfl x hx
    · simp [h2]

/-- The numbers handed over are the numbers that the layer knows. -/
theorem CRun.knows {st : CStart} {h : List (CEvent M)} {sl : SecureLayer} (hr : CRun env f st h sl)
    (hok : ∀ e ∈ h, e.readOk = true) (hb : (cinputs h).length + 1 < 2 ^ 64) :
    ∃ Ns, List.Forall₂ (CCarries env.cr f sl.minimal.secret) h Ns ∧ Knows sl.minimal (Ns.flatten.map Prod.fst) ∧
      Ns.flatten.length ≤ (cinputs h).length := by
  obtain ⟨⟨l, hl, hlow⟩, -⟩ := hr.lower
  rw [← hlow.inputs] at hb ⊢
  obtain ⟨hu, Ls, ht⟩ := used_le hl (.inr (by unfold u64Size; omega))
  have hw := (Wf.of_run hl).win
  have hD := ht.knows hw (hlow.regular hok) (by unfold u64Size; omega)
  obtain ⟨Ns, h1, h2⟩ := lowers_carries_all hlow hok ht.account
  refine ⟨Ns, h1, h2 ▸ hD, ?_⟩
  have := hD.card hw
  rw [List.length_map] at this
  unfold Layer.used at hu
  rw [h2]
  omega

/-! ## Reading a schedule -/

/-- A failed layer refuses every new user message. -/
theorem read_user_failed_eval {b : Layer} {k : SecretKey} {n : Nat} (p : Bytes) (law : env.cr.Lawful) (hn : n < u64Size)
    (hlen : 26 + p.length < u64Size) (hks : ¬ ∀ i < 4, env.cr.keystream k.key k.nonce i = 0)
    (hk : b.secret = some k) (hs : b.status = .fail) (hfresh : ¬ b.seen n) :
    b.read env (aeadSeal env.cr k (userPlain env.cr n p)) = (b, .err .connectionHadFail) := by
  obtain ⟨d, h1, h2, h3, h4, h5, h6⟩ := readerRead_user p law hn hlen hks
  unfold Layer.read Layer.readInner
  rw [hk, h1]
  dsimp only
  rw [h3]
  dsimp only
  unfold Layer.readUser
  unfold Layer.seen at hfresh
  rw [if_neg hfresh, hs]
  simp only [Status.applyAction]
  rw [← hs]

theorem readBin_err {b b' : Layer} {sl : SecureLayer} {inc : Bytes} {e : Error} (hb : sl.minimal = b)
    (h : b.read env inc = (b', .err e)) : sl.readBin env inc = ({ sl with minimal := b' }, .err e) := by
  subst hb
  unfold SecureLayer.readBin
  rw [h]

theorem readBin_msg {b b' : Layer} {sl : SecureLayer} {inc : Bytes} {p d : Option Bytes} (hb : sl.minimal = b)
    (h : b.read env inc = (b', .ok (some (.message p)))) (hd : SecureLayer.uncompressOpt env.cr p = .ok d) :
    sl.readBin env inc = ({ sl with minimal := b' }, .ok [.message d]) := by
  subst hb
  unfold SecureLayer.readBin
  rw [h]
  dsimp only
  rw [hd]

theorem packed_opens (law : env.cr.Lawful) (x : Parcel) :
    SecureLayer.uncompressOpt env.cr (present (x.packed env.cr)) = .ok (some x.data) := by
  simp [present, Parcel.packed, law.deflate_ne_nil, SecureLayer.uncompressOpt, SecureLayer.uncompress, law.inflate_deflate]

theorem readBins_verdicts (law : env.cr.Lawful) {k : SecretKey} (hks : ¬ ∀ i < 4, env.cr.keystream k.key k.nonce i = 0)
    (l : List Parcel) {sl : SecureLayer} {D : List Nat} {ended : Bool} (hk : sl.minimal.secret = some k)
    (hs : sl.minimal.status = if ended then .fail else .success) (hw : WinOk sl.minimal) (hD : Knows sl.minimal D)
    (hl : ∀ x ∈ l, x.Fits env.cr) (hroom : D.length + l.length < u64Size) :
    (readBins env sl (l.map (Parcel.bytes env.cr k))).2 =
      List.zipWith (fun x v => v.answer x.data) l (verdicts D ended (l.map Parcel.num)) ∧
    (readBins env sl (l.map (Parcel.bytes env.cr k))).1.minimal.status =
      if ended = true ∨ .overflow ∈ verdicts D ended (l.map Parcel.num) then .fail else .success := by
  induction l generalizing sl D ended with
  | nil => simp [readBins, verdicts, hs]
  | cons x l ih =>
    obtain ⟨hn, hlen⟩ := hl x (by simp)
    have hl' : ∀ y ∈ l, y.Fits env.cr := fun y hy => hl y (by simp [hy])
    rw [List.length_cons] at hroom
    simp only [List.map_cons, readBins, verdicts]
    by_cases hm : x.num ∈ D
    · have hrd := readBin_err (env := env) (sl := sl) rfl (read_user_replay_eval (x.packed env.cr) law hn hlen hks hk ((hD.seen _).mpr hm))
      rw [← cipherOf_eq] at hrd
      have hsame : ({ sl with minimal := sl.minimal } : SecureLayer) = sl := rfl
      rw [if_pos hm, show x.bytes env.cr k = cipherOf env.cr k x.num (x.packed env.cr) from rfl, hrd, hsame]
      obtain ⟨h1, h2⟩ := ih hk hs hw hD hl' (by omega)
      simp [h1, h2, Verdict.answer]
    · rw [if_neg hm, show x.bytes env.cr k = cipherOf env.cr k x.num (x.packed env.cr) from rfl]
      cases ended with
      | true =>
        have hrd := readBin_err (env := env) (sl := sl) rfl (read_user_failed_eval (x.packed env.cr) law hn hlen hks hk (by simpa using hs)
          (fun h => hm ((hD.seen _).mp h)))
        rw [← cipherOf_eq] at hrd
        have hsame : ({ sl with minimal := sl.minimal } : SecureLayer) = sl := rfl
        rw [hrd, hsame]
        obtain ⟨h1, h2⟩ := ih hk hs hw hD hl' (by omega)
        simp [h1, h2, Verdict.answer]
      | false =>
        obtain ⟨a1, -, a3⟩ := read_user_window (env := env) law hn hlen hks hk (by simpa using hs) hw hD (by omega)
        by_cases hd : Deliverable D x.num
        · obtain ⟨e, O, b1, b2, b3⟩ := a1 hd
          rw [readBin_msg rfl b1 (packed_opens law x)]
          obtain ⟨h1, h2⟩ := ih (sl := { sl with minimal := { sl.minimal with nextNonceExpected := e, orphanNonces := O } })
            hk hs b2 b3 hl' (by simp; omega)
          simp [hd, h1, h2, Verdict.answer]
        · rw [readBin_err rfl (a3 hm hd)]
          have hD' : Knows { sl.minimal with status := .fail } D := ⟨hD.nodup, hD.seen⟩
          obtain ⟨h1, h2⟩ := ih (sl := { sl with minimal := { sl.minimal with status := .fail } }) (ended := true)
            hk rfl (by exact ⟨hw.1, hw.2, hw.3⟩) hD' hl' (by omega)
          simp [hd, h1, h2, Verdict.answer]

/-- **C62.** Let a negotiated layer of the complete mode, no read of which has failed, be given any list of user messages
that holders of the session key sealed: in any order, with anything missing or repeated.  Every answer of `read_bin` is
determined by the numbers handed over so far: a number handed over before is refused without effect, a deliverable one is
handed over with its content, any other one ends the session; from then on everything is refused. -/
theorem C62_receiver (law : env.cr.Lawful) {st : CStart} {h : List (CEvent M)} {sl : SecureLayer}
    (hr : CRun env f st h sl) (hok : ∀ e ∈ h, e.readOk = true) (hs : sl.minimal.status = .success) {k : SecretKey}
    (hk : sl.minimal.secret = some k) (hks : ¬ ∀ i < 4, env.cr.keystream k.key k.nonce i = 0)
    (hb : (cinputs h).length + 1 < 2 ^ 64) :
    ∃ Ns, List.Forall₂ (CCarries env.cr f (some k)) h Ns ∧ (Ns.flatten.map Prod.fst).Nodup ∧
      ∀ l : List Parcel, (∀ x ∈ l, x.Fits env.cr) → (cinputs h).length + l.length + 1 < 2 ^ 64 →
      (readBins env sl (l.map (Parcel.bytes env.cr k))).2 =
        List.zipWith (fun x v => v.answer x.data) l (verdicts (Ns.flatten.map Prod.fst) false (l.map Parcel.num)) ∧
      ((readBins env sl (l.map (Parcel.bytes env.cr k))).1.minimal.status = .success ↔
        .overflow ∉ verdicts (Ns.flatten.map Prod.fst) false (l.map Parcel.num)) := by
  obtain ⟨Ns, h1, h2, h3⟩ := hk ▸ CRun.knows hr hok hb
  refine ⟨Ns, h1, h2.nodup, fun l hl hlen => ?_⟩
  obtain ⟨h4, h5⟩ := readBins_verdicts (ended := false) law hks l hk (by simpa using hs) hr.wf.win h2 hl
    (by rw [List.length_map]; unfold u64Size; omega)
  refine ⟨h4, ?_⟩
  rw [h5]
  by_cases ho : .overflow ∈ verdicts (Ns.flatten.map Prod.fst) false (l.map Parcel.num) <;> simp

/-! ## A lossy, repeating, reordering network -/

theorem overflow_flow (D l : List Nat) :
    .overflow ∉ verdicts D false l ↔ Flow D ((l.filter (· ∉ D)).eraseDups) := by
  induction l generalizing D with
  | nil => simp [verdicts, Flow]
  | cons n l ih =>
    unfold verdicts
    by_cases hm : n ∈ D
    · simp [hm, ih]
    · rw [if_neg hm, List.filter_cons_of_pos (by simpa using hm), List.eraseDups_cons, Flow]
      have hf : ((l.filter (· ∉ D)).filter fun b => !b == n) = l.filter (· ∉ D ++ [n]) := by
        rw [List.filter_filter]
        apply List.filter_congr
        intro x _
        by_cases hx : x = n <;> simp [hx]
      by_cases hd : Deliverable D n
      · simp only [Bool.false_eq_true, if_false, hd, if_true, true_and, List.mem_cons, reduceCtorEq, false_or]
        rw [hf]
        exact ih _
      · simp [hd]

theorem nodup_eraseDups : ∀ (l : List Nat), l.eraseDups.Nodup
  | [] => by simp
  | n :: l => by
    rw [List.eraseDups_cons, List.nodup_cons]
    refine ⟨by simp [List.mem_eraseDups], nodup_eraseDups _⟩
termination_by l => l.length
decreasing_by
  simp only [List.length_cons]
  exact Nat.lt_succ_of_le (List.length_filter_le _ _)

/-- Without an overflow every number is handed over when it arrives for the first time. -/
theorem verdicts_first (D l : List Nat) (ho : .overflow ∉ verdicts D false l) (j : Nat) (n : Nat) (hj : l[j]? = some n) :
    (verdicts D false l)[j]? = some (if n ∈ D ++ l.take j then .repeated else .delivered) := by
  induction l generalizing D j with
  | nil => simp at hj
  | cons x l ih =>
    unfold verdicts at ho ⊢
    by_cases hm : x ∈ D
    · simp only [if_pos hm, List.mem_cons, not_or] at ho ⊢
      cases j with
      | zero =>
        simp only [List.getElem?_cons_zero, Option.some.injEq] at hj
        subst hj
        simp [hm]
      | succ j =>
        rw [List.getElem?_cons_succ] at hj ⊢
        rw [ih D ho.2 j hj]
        congr 1
        have : (n ∈ D ++ List.take j l ↔ n ∈ D ++ List.take (j + 1) (x :: l)) := by
          simp only [List.take_succ_cons, List.mem_append, List.mem_cons]
          constructor
          · tauto
          · rintro (h | rfl | h) <;> tauto
        simp only [this]
    · by_cases hd : Deliverable D x
      · simp only [if_neg hm, Bool.false_eq_true, if_false, if_pos hd, List.mem_cons, not_or] at ho ⊢
        cases j with
        | zero =>
          simp only [List.getElem?_cons_zero, Option.some.injEq] at hj
          subst hj
          simp [hm]
        | succ j =>
          rw [List.getElem?_cons_succ] at hj ⊢
          rw [ih _ ho.2 j hj]
          simp
      · simp [hm, hd] at ho

/-- The session survives exactly if no number is overtaken by too many others. -/
theorem survives_iff (l : List Nat) :
    .overflow ∉ verdicts [] false l ↔ ∀ m, (overtakers l.eraseDups m).length ≤ 10000 := by
  rw [overflow_flow, flow_iff _ _ (by simpa using nodup_eraseDups _) (by simp)]
  simp

theorem carries_nil {cr : Crypto} {sec : Option SecretKey} {h : List (CEvent M)} {Ns : List (List (Nat × Bytes))}
    (hc : List.Forall₂ (CCarries cr f sec) h Ns) (hu : Kind.user ∉ ckinds h) : Ns.flatten = [] := by
  rw [List.flatten_eq_nil_iff]
  intro N hN
  obtain ⟨e, he, ⟨xs, hsh, hxs⟩, -⟩ := forall₂_mem_right hc hN
  have hk : Kind.user ∉ e.kinds := fun hk => hu (List.mem_flatMap.mpr ⟨e, he, hk⟩)
  rw [hsh.kinds] at hk
  have : binUsers xs = [] := by
    unfold binUsers
    rw [List.filterMap_eq_nil_iff]
    intro x hx
    cases x with
    | message d => exact absurd (List.mem_map.mpr ⟨_, hx, rfl⟩) hk
    | _ => rfl
  rw [this] at hxs
  cases hxs
  rfl

/-- **C62.** The network between two parties may lose, repeat and reorder user messages.  A layer that has just been
negotiated survives the list of messages `l` exactly if no number, arrived or lost, is overtaken by more than 10000
different larger ones.  Then each message is handed over, with its content, when it arrives for the first time, and its
repetitions are refused with `InvalidNonce`. -/
theorem C62_lossy (law : env.cr.Lawful) {st : CStart} {h : List (CEvent M)} {sl : SecureLayer}
    (hr : CRun env f st h sl) (hok : ∀ e ∈ h, e.readOk = true) (hno : Kind.user ∉ ckinds h)
    (hs : sl.minimal.status = .success) {k : SecretKey}
    (hk : sl.minimal.secret = some k) (hks : ¬ ∀ i < 4, env.cr.keystream k.key k.nonce i = 0)
    (l : List Parcel) (hl : ∀ x ∈ l, x.Fits env.cr) (hb : (cinputs h).length + l.length + 1 < 2 ^ 64) :
    ((readBins env sl (l.map (Parcel.bytes env.cr k))).1.minimal.status = .success ↔
      ∀ m, (overtakers (l.map Parcel.num).eraseDups m).length ≤ 10000) ∧
    ((∀ m, (overtakers (l.map Parcel.num).eraseDups m).length ≤ 10000) → ∀ j x, l[j]? = some x →
      (readBins env sl (l.map (Parcel.bytes env.cr k))).2[j]? =
        some (if x.num ∈ (l.take j).map Parcel.num then .err (.recvInvalidMsg .invalidNonce)
          else .ok [.message (some x.data)])) := by
  obtain ⟨Ns, h1, -, h3⟩ := C62_receiver law hr hok hs hk hks (by omega)
  obtain ⟨h4, h5⟩ := h3 l hl hb
  rw [carries_nil h1 hno] at h4 h5
  refine ⟨h5.trans (survives_iff _), fun ho j x hj => ?_⟩
  have hv := verdicts_first [] _ ((survives_iff _).mpr ho) j x.num (by simp [hj])
  rw [h4, List.getElem?_zipWith, hj, List.map_nil, hv]
  simp only [List.nil_append, List.map_take, Option.some.injEq]
  split <;> rfl

/-- **C62.** In particular one lost message ends the session of the reader as soon as 10001 different later ones have arrived,
whatever is done afterwards. -/
theorem C62_one_lost (law : env.cr.Lawful) {st : CStart} {h : List (CEvent M)} {sl : SecureLayer}
    (hr : CRun env f st h sl) (hok : ∀ e ∈ h, e.readOk = true) (hno : Kind.user ∉ ckinds h)
    (hs : sl.minimal.status = .success) {k : SecretKey}
    (hk : sl.minimal.secret = some k) (hks : ¬ ∀ i < 4, env.cr.keystream k.key k.nonce i = 0)
    (l : List Parcel) (hl : ∀ x ∈ l, x.Fits env.cr) (hb : (cinputs h).length + l.length + 1 < 2 ^ 64)
    {m : Nat} (hm : ∀ x ∈ l, x.num ≠ m) {late : List Nat} (hnd : late.Nodup) (hlen : 10000 < late.length)
    (hlate : ∀ n ∈ late, m < n ∧ ∃ x ∈ l, x.num = n) :
    (readBins env sl (l.map (Parcel.bytes env.cr k))).1.minimal.status ≠ .success := by
  intro hc
  have h1 := (C62_lossy law hr hok hno hs hk hks l hl hb).1.mp hc m
  have h2 : late.Subperm (overtakers (l.map Parcel.num).eraseDups m) := by
    refine List.subperm_of_subset hnd fun n hn => ?_
    obtain ⟨h3, x, hx, rfl⟩ := hlate n hn
    unfold overtakers
    rw [List.takeWhile_eq_self_iff.mpr]
    · simpa [List.mem_eraseDups, h3] using ⟨x, hx, rfl⟩
    · intro y hy
      rw [List.mem_eraseDups] at hy
      obtain ⟨z, hz, rfl⟩ := List.mem_map.mp hy
      simpa using hm z hz
  have := h2.length_le
  omega

/-! ## Between two parties -/

theorem sent_parcel (law : env.cr.Lawful) {st : CStart} {h : List (CEvent M)} {sl : SecureLayer}
    (hr : CRun env f st h sl) (hn : h.countP CEvent.writesUser ≤ 2 ^ 64) {k : SecretKey} (hk : sl.minimal.secret = some k)
    {x : Posted} (hx : x.In h) :
    ∃ lvl, x.bytes = Parcel.bytes env.cr k ⟨x.index, lvl, x.data⟩ ∧ x.index < 2 ^ 64 := by
  obtain ⟨h1, h2, w, w', hh, hi, hcap, hst⟩ := hx
  obtain ⟨s1, s2, hr1, hs2, hr2, ⟨op, he1, hop⟩ | ⟨he1, -⟩⟩ := hr.at hh
  swap
  · simp at he1
  have hlt : x.index < 2 ^ 64 := by
    rw [hh, List.countP_append, List.countP_cons_of_pos (by simp [CEvent.writesUser])] at hn
    omega
  cases op with
  | writeBin d v =>
    simp only [cstep, CEvent.writeBin.injEq] at he1 hop
    obtain ⟨rfl, rfl, rfl, hres⟩ := he1
    obtain ⟨⟨l, hlr, hlow⟩, -⟩ := hr1.lower
    have hsent := sent_eq hlr
    rw [hlow.counts.2.2.1, hi, Nat.mod_eq_of_lt hlt] at hsent
    rcases hw : s1.writeBin env x.data w with ⟨s', w', r⟩
    rw [hw] at hres hst
    dsimp only at hres hst
    subst hres
    obtain ⟨-, k', hk', h'⟩ := C46_ok_written_bin law hcap hw
    obtain ⟨l1, hl1, -⟩ := cstep_lower (f := f) (M := M) hr1.wf (.writeBin x.data w)
    obtain ⟨l2, hl2, -⟩ := CSteps.lower hr2 hs2
    rw [hop] at hl2
    have := (C14_secret_stable hlr (hl1.trans hl2)).2 k' hk'
    obtain rfl : k = k' := by rw [hk] at this; exact Option.some.inj this
    rw [h', hsent] at hst
    exact ⟨_, (List.append_cancel_left hst).symm, hlt⟩
  | _ => simp [cstep] at he1

theorem posted_core (law : env.cr.Lawful) {st : CStart} {h : List (CEvent M)} {sl : SecureLayer}
    (hr : CRun env f st h sl) (hok : ∀ e ∈ h, e.readOk = true) (hno : Kind.user ∉ ckinds h)
    (hs : sl.minimal.status = .success) {k : SecretKey}
    (hk : sl.minimal.secret = some k) (hks : ¬ ∀ i < 4, env.cr.keystream k.key k.nonce i = 0)
    (l : List Posted) (hl : ∀ x ∈ l, (∃ lvl, x.bytes = Parcel.bytes env.cr k ⟨x.index, lvl, x.data⟩ ∧ x.index < 2 ^ 64) ∧
      x.bytes.length < 2 ^ 64)
    (hb : (cinputs h).length + l.length + 1 < 2 ^ 64) :
    ((readBins env sl (l.map Posted.bytes)).1.minimal.status = .success ↔
      ∀ m, (overtakers (l.map Posted.index).eraseDups m).length ≤ 10000) ∧
    ((∀ m, (overtakers (l.map Posted.index).eraseDups m).length ≤ 10000) → ∀ j x, l[j]? = some x →
      (readBins env sl (l.map Posted.bytes)).2[j]? =
        some (if x.index ∈ (l.take j).map Posted.index then .err (.recvInvalidMsg .invalidNonce)
          else .ok [.message (some x.data)])) := by
  obtain ⟨ps, hps⟩ := exists_forall₂ (R := fun (x : Posted) (p : Parcel) => x.bytes = p.bytes env.cr k ∧ p.Fits env.cr ∧
      p.num = x.index ∧ p.data = x.data) (l := l) (by
    intro x hx
    obtain ⟨⟨lvl, h3, h4⟩, h2⟩ := hl x hx
    refine ⟨⟨x.index, lvl, x.data⟩, h3, ⟨h4, ?_⟩, rfl, rfl⟩
    rw [h3] at h2
    simp [Parcel.bytes, cipherOf, aeadSeal, xorKeystream, userFrame, frame] at h2
    dsimp only [Parcel.packed] at h2 ⊢
    omega)
  have e1 : l.map Posted.bytes = ps.map (Parcel.bytes env.cr k) := by
    clear hl hb
    induction hps with
    | nil => rfl
    | cons hx _ ih => simp [hx.1, ih]
  have e2 : l.map Posted.index = ps.map Parcel.num := by
    clear hl hb e1
    induction hps with
    | nil => rfl
    | cons hx _ ih => simp [hx.2.2.1, ih]
  have e3 : l.map Posted.data = ps.map Parcel.data := by
    clear hl hb e1 e2
    induction hps with
    | nil => rfl
    | cons hx _ ih => simp [hx.2.2.2, ih]
  obtain ⟨c1, c2⟩ := C62_lossy law hr hok hno hs hk hks ps
    (fun p hp => by obtain ⟨x, -, hx⟩ := forall₂_mem_right hps hp; exact hx.2.1) (by rw [← hps.length_eq]; exact hb)
  rw [← e1, ← e2] at c1 c2
  refine ⟨c1, fun ho j x hj => ?_⟩
  have hj2 : (l.map Posted.index)[j]? = some x.index := by simp [hj]
  have hj3 : (l.map Posted.data)[j]? = some x.data := by simp [hj]
  rw [e2, List.getElem?_map] at hj2
  rw [e3, List.getElem?_map] at hj3
  cases hp : ps[j]? with
  | none => rw [hp] at hj2; simp at hj2
  | some p =>
    rw [hp] at hj2 hj3
    simp only [Option.map_some, Option.some.injEq] at hj2 hj3
    have := c2 ho j p hp
    rw [hj2, hj3, List.map_take, ← e2, ← List.map_take] at this
    exact this

/-- **C62.** What one party writes with `write_bin` and what the other one is handed over by `read_bin`: the network may lose,
repeat and reorder the messages.  The session of the reader survives exactly if no message, arrived or lost, is overtaken by
more than 10000 different later ones; then every message is handed over unchanged when it arrives for the first time, and
its repetitions are refused with `InvalidNonce`. -/
theorem C62_peer (law : env.cr.Lawful) {stA st : CStart} {hA h : List (CEvent M)} {slA sl : SecureLayer}
    (hrA : CRun env f' stA hA slA) (hr : CRun env f st h sl) (hok : ∀ e ∈ h, e.readOk = true) (hno : Kind.user ∉ ckinds h)
    (hs : sl.minimal.status = .success) {k : SecretKey} (hkA : slA.minimal.secret = some k)
    (hk : sl.minimal.secret = some k) (hks : ¬ ∀ i < 4, env.cr.keystream k.key k.nonce i = 0)
    (hn : hA.countP CEvent.writesUser ≤ 2 ^ 64) (l : List Posted) (hl : ∀ x ∈ l, x.In hA ∧ x.bytes.length < 2 ^ 64)
    (hb : (cinputs h).length + l.length + 1 < 2 ^ 64) :
    ((readBins env sl (l.map Posted.bytes)).1.minimal.status = .success ↔
      ∀ m, (overtakers (l.map Posted.index).eraseDups m).length ≤ 10000) ∧
    ((∀ m, (overtakers (l.map Posted.index).eraseDups m).length ≤ 10000) → ∀ j x, l[j]? = some x →
      (readBins env sl (l.map Posted.bytes)).2[j]? =
        some (if x.index ∈ (l.take j).map Posted.index then .err (.recvInvalidMsg .invalidNonce)
          else .ok [.message (some x.data)])) :=
  posted_core law hr hok hno hs hk hks l (fun x hx => ⟨sent_parcel law hrA hn hkA (hl x hx).1, (hl x hx).2⟩) hb

/-! ## A concrete case -/

/-- Toy party B negotiates. -/
theorem Toy.chist_b4 {M : Type} (oc : Bool) : ∃ h : List (CEvent M), CRun (Toy.env oc) f Toy.cstB h (Toy.csB Toy.b4) ∧
    (∀ e ∈ h, e.readOk = true) ∧ Kind.user ∉ ckinds h ∧ (cinputs h).length = 2 := by
  have s1 : (Toy.csB (Toy.layer0 [2] none)).readBin (Toy.env oc) Toy.cconA =
      (Toy.csB Toy.b1, .ok [.connect (some [7, 8]) Toy.pkA]) :=
    Prod.ext (by cases oc <;> decide +kernel) (by cases oc <;> decide +kernel)
  have s4 : (Toy.csB Toy.b3).readBin (Toy.env oc) Toy.cackA = (Toy.csB Toy.b4, .ok [.ack (some [])]) :=
    Prod.ext (by cases oc <;> decide +kernel) (by cases oc <;> decide +kernel)
  have r0 : CRun (M := M) (Toy.env oc) f Toy.cstB [] (Toy.csB (Toy.layer0 [2] none)) := .init rfl
  have r1 := r0.call (.readBin Toy.cconA)
  simp only [cstep, s1] at r1
  have r2 := r1.call (.connectBin none Toy.sink)
  rw [show (cstep (M := M) (Toy.env oc) f (Toy.csB Toy.b1) (.connectBin none Toy.sink)).1 = Toy.csB Toy.b2 from rfl] at r2
  have r3 := r2.call (.ackBin none Toy.sink)
  rw [show (cstep (M := M) (Toy.env oc) f (Toy.csB Toy.b2) (.ackBin none Toy.sink)).1 = Toy.csB Toy.b3 from rfl] at r3
  have r4 := r3.call (.readBin Toy.cackA)
  simp only [cstep, s4] at r4
  exact ⟨_, r4, by simp [CEvent.readOk, Res.isOk], by simp [ckinds, CEvent.kinds, BinMessage.kind], by simp [cinputs, CEvent.input]⟩

/-- Toy party A negotiates. -/
theorem Toy.chist_a4 {M : Type} (oc : Bool) : ∃ h : List (CEvent M), CRun (Toy.env oc) f Toy.cstA h (Toy.csA Toy.a4) ∧
    h.countP CEvent.writesUser = 0 := by
  have s2 : ((Toy.csA Toy.a1).readBin (Toy.env oc) Toy.cconB).1 = Toy.csA Toy.a2 := by cases oc <;> decide +kernel
  have s3 : ((Toy.csA Toy.a2).readBin (Toy.env oc) Toy.cackB).1 = Toy.csA Toy.a3 := by cases oc <;> decide +kernel
  have r0 : CRun (M := M) (Toy.env oc) f Toy.cstA [] (Toy.csA (Toy.layer0 [1] none)) := .init rfl
  have r1 := r0.call (.connectBin (some [7, 8]) Toy.sink)
  rw [show (cstep (M := M) (Toy.env oc) f _ (.connectBin (some [7, 8]) Toy.sink)).1 = Toy.csA Toy.a1 from rfl] at r1
  have r2 := r1.call (.readBin Toy.cconB)
  simp only [cstep, s2] at r2
  have r3 := r2.call (.readBin Toy.cackB)
  simp only [cstep, s3] at r3
  have r4 := r3.call (.ackBin (some []) Toy.sink)
  rw [show (cstep (M := M) (Toy.env oc) f _ (.ackBin (some []) Toy.sink)).1 = Toy.csA Toy.a4 from rfl] at r4
  exact ⟨_, r4, by simp [cstep, CEvent.writesUser]⟩

/-- Party B gets number 2, number 0 and number 2 again; number 1 is lost. -/
example (oc : Bool) : ∃ h : List (CEvent Unit), CRun (Toy.env oc) f Toy.cstB h (Toy.csB Toy.b4) ∧
    (∀ e ∈ h, e.readOk = true) ∧ Kind.user ∉ ckinds h ∧ (cinputs h).length + 3 + 1 < 2 ^ 64 ∧
    verdicts [] false [2, 0, 2] = [.delivered, .delivered, .repeated] ∧
    (readBins (Toy.env oc) (Toy.csB Toy.b4) ([⟨2, 0, [9]⟩, ⟨0, 0, [7]⟩, ⟨2, 0, [9]⟩].map (Parcel.bytes Toy.cr Toy.key))).2 =
      [.ok [.message (some [9])], .ok [.message (some [7])], .err (.recvInvalidMsg .invalidNonce)] := by
  obtain ⟨h, hr, h1, h2, h3⟩ := Toy.chist_b4 (f := f) oc
  exact ⟨h, hr, h1, h2, by omega, by decide, by cases oc <;> decide +kernel⟩

/-- Toy party A after `n` messages. -/
def Toy.aSent (n : Nat) : SecureLayer := Toy.csA { Toy.a4 with nextNonceSent := n }

/-- Party A writes three messages; the last one, the first one and the last one again reach B: this meets the hypotheses
of `C62_peer`. -/
example (oc : Bool) : ∃ (hA h : List (CEvent Unit)) (slA sl : SecureLayer) (l : List Posted),
    CRun (Toy.env oc) f Toy.cstA hA slA ∧ CRun (Toy.env oc) f Toy.cstB h sl ∧ (∀ e ∈ h, e.readOk = true) ∧
    Kind.user ∉ ckinds h ∧ sl.minimal.status = .success ∧ slA.minimal.secret = some Toy.key ∧
    sl.minimal.secret = some Toy.key ∧ (¬ ∀ i < 4, Toy.cr.keystream Toy.key.key Toy.key.nonce i = 0) ∧
    hA.countP CEvent.writesUser = 3 ∧ l.map Posted.index = [2, 0, 2] ∧ l.map Posted.data = [[9], [7], [9]] ∧
    (∀ x ∈ l, x.In hA ∧ x.bytes.length < 2 ^ 64) ∧ (cinputs h).length + l.length + 1 < 2 ^ 64 := by
  obtain ⟨h, hr, h1, h2, h3⟩ := Toy.chist_b4 (f := f) oc
  obtain ⟨hA, hrA, hc⟩ := Toy.chist_a4 (f := f) oc
  have w1 : ∀ n < 3, ∀ d ∈ ([[7], [8], [9]] : List Bytes),
      ((Toy.aSent n).writeBin (Toy.env oc) d Toy.sink).1 = Toy.aSent (n + 1) := by cases oc <;> decide +kernel
  have w2 : ∀ n < 3, ∀ d ∈ ([[7], [8], [9]] : List Bytes),
      ((Toy.aSent n).writeBin (Toy.env oc) d Toy.sink).2.2 = .ok () := by cases oc <;> decide +kernel
  have w3 : ∀ n < 3, ∀ d ∈ ([[7], [8], [9]] : List Bytes),
      ((Toy.aSent n).writeBin (Toy.env oc) d Toy.sink).2.1.stream =
        Toy.sink.stream ++ cipherOf Toy.cr Toy.key n (0 :: d) := by cases oc <;> decide +kernel
  have hrA' : CRun (M := Unit) (Toy.env oc) f Toy.cstA hA (Toy.aSent 0) := hrA
  have r1 := hrA'.call (.writeBin [7] Toy.sink)
  simp only [cstep, w1 0 (by decide) [7] (by decide), w2 0 (by decide) [7] (by decide)] at r1
  have r2 := r1.call (.writeBin [8] Toy.sink)
  simp only [cstep, w1 1 (by decide) [8] (by decide), w2 1 (by decide) [8] (by decide)] at r2
  have r3 := r2.call (.writeBin [9] Toy.sink)
  simp only [cstep, w1 2 (by decide) [9] (by decide), w2 2 (by decide) [9] (by decide)] at r3
  refine ⟨_, h, _, _, [⟨2, cipherOf Toy.cr Toy.key 2 [0, 9], [9]⟩, ⟨0, cipherOf Toy.cr Toy.key 0 [0, 7], [7]⟩,
    ⟨2, cipherOf Toy.cr Toy.key 2 [0, 9], [9]⟩], r3, hr, h1, h2, rfl, rfl, rfl, Toy.key_stream, ?_, rfl, rfl, ?_, ?_⟩
  · simp [hc, CEvent.writesUser]
  · have in0 := w3 0 (by decide) [7] (by decide)
    have in2 := w3 2 (by decide) [9] (by decide)
    have hcap : 16 < Toy.sink.cap := by decide
    intro x hx
    simp only [List.mem_cons, List.not_mem_nil, or_false] at hx
    rcases hx with rfl | rfl | rfl
    · exact ⟨⟨_, [], _, _, rfl, by simp [hc, CEvent.writesUser], hcap, in2⟩, by decide +kernel⟩
    · exact ⟨⟨hA, _, _, _, by simp only [List.append_assoc, List.cons_append, List.nil_append]; rfl, hc, hcap, in0⟩,
        by decide +kernel⟩
    · exact ⟨⟨_, [], _, _, rfl, by simp [hc, CEvent.writesUser], hcap, in2⟩, by decide +kernel⟩
  · rw [h3]; decide

/-- The first message is lost and the next 10001 arrive: this meets the hypotheses of `C62_one_lost`. -/
example (oc : Bool) : ∃ (h : List (CEvent Unit)) (l : List Parcel), CRun (Toy.env oc) f Toy.cstB h (Toy.csB Toy.b4) ∧
    (∀ e ∈ h, e.readOk = true) ∧ Kind.user ∉ ckinds h ∧ (∀ x ∈ l, x.Fits Toy.cr) ∧
    (cinputs h).length + l.length + 1 < 2 ^ 64 ∧ (∀ x ∈ l, x.num ≠ 0) ∧
    ((List.range 10001).map (· + 1)).Nodup ∧ 10000 < ((List.range 10001).map (· + 1)).length ∧
    ∀ n ∈ (List.range 10001).map (· + 1), 0 < n ∧ ∃ x ∈ l, x.num = n := by
  obtain ⟨h, hr, h1, h2, h3⟩ := Toy.chist_b4 (f := f) oc
  refine ⟨h, (List.range 10001).map fun i => ⟨i + 1, 0, []⟩, hr, h1, h2, ?_, by simp [h3], by simp,
    List.nodup_range.map fun _ _ => by simp, by simp, ?_⟩
  · intro x hx
    obtain ⟨i, hi, rfl⟩ := List.mem_map.mp hx
    rw [List.mem_range] at hi
    exact ⟨by dsimp only; omega, (by decide +kernel : 26 + (Toy.cr.deflate 0 []).length < 2 ^ 64)⟩
  · intro n hn
    obtain ⟨i, hi, rfl⟩ := List.mem_map.mp hn
    exact ⟨by omega, ⟨i + 1, 0, []⟩, List.mem_map.mpr ⟨i, hi, rfl⟩, rfl⟩

end Pkstl
