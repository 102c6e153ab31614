import Verif.Spec.History
import Verif.Model.Serde
/-
A concrete instance of the primitives that satisfies all laws.  It is used only to show that the
hypotheses of the theorems can be met; no theorem is about it.
-/
namespace Pkstl.Toy

/-- Cut or zero-fill to `n` bytes. -/
def pad (n : Nat) (b : Bytes) : Bytes := (b ++ List.replicate n 0).take n

theorem pad_length (n : Nat) (b : Bytes) : (pad n b).length = n := by
  simp [pad]

def xpub (k : Bytes) : Bytes := 1 :: pad 31 k

def cr : Crypto where
  sha256 b := pad 32 b.reverse
  edPublic s := pad 32 s
  edSign s m := pad 64 (pad 32 s ++ m.reverse)
  edVerify k m s := decide (s = pad 64 (k ++ m.reverse))
  xPublic k := xpub k
  xAgree a p := if p.length = 32 ∧ p ≠ List.replicate 32 0 then some (List.zipWith (· ^^^ ·) (xpub a) p) else none
  pbkdf2 _ _ salt sec len := pad len (sec ++ salt)
  keystream _ _ _ := 1
  polyTag k _ _ c := pad 16 (c.reverse ++ k)
  deflate l b := (if l = 0 then 0 else 1) :: b
  inflate b := match b with
    | 0 :: r => some r
    | 1 :: r => some r
    | _ => none
  chunks b := [b]

theorem zipWith_xor_comm (a b : Bytes) :
    List.zipWith (· ^^^ ·) a b = List.zipWith (· ^^^ ·) b a := by
  induction a generalizing b with
  | nil => cases b <;> rfl
  | cons x xs ih =>
    cases b with
    | nil => rfl
    | cons y ys => simp [ih ys, UInt8.xor_comm x y]

theorem lawful : cr.Lawful where
  sha256_length b := pad_length _ _
  edPublic_length s := pad_length _ _
  edSign_length s m := pad_length _ _
  edVerify_length k m s h := by
    simp [cr] at h; rw [h]; exact pad_length _ _
  edVerify_sign s m := by simp [cr]
  xPublic_length k := by simp [cr, xpub, pad_length]
  xAgree_comm a b := by
    have h : ∀ k, ¬ xpub k = List.replicate 32 0 := by
      intro k hk
      have := congrArg List.head? hk
      simp [xpub] at this
    have h2 : ∀ k, (xpub k).length = 32 := by intro k; simp [xpub, pad_length]
    simp only [cr, h, h2, ne_eq, not_false_eq_true, and_self, if_true]
    rw [zipWith_xor_comm]
  xAgree_length a p s h := by
    simp only [cr] at h
    split at h
    · rename_i hc; exact hc.1
    · simp at h
  pbkdf2_length _ _ _ _ len := pad_length _ _
  polyTag_length _ _ _ _ := pad_length _ _
  inflate_deflate l b := by
    by_cases h : l = 0 <;> simp [cr, h]
  deflate_ne_nil l b := by simp [cr]
  chunks_flatten b := by simp [cr]

/-- The toy build. -/
def env (oc : Bool) : Env := ⟨cr, oc⟩

/-- Seeds of two parties and a third one. -/
def seedA : Bytes := [10]
def seedB : Bytes := [20]
def seedM : Bytes := [30]

/-- Party with ephemeral randomness `r`, expecting `e`. -/
def start (r : Bytes) (e : Option Bytes) : Spec.Start := ⟨Config.default, e, r⟩

/-- Its initial layer. -/
def layer0 (r : Bytes) (e : Option Bytes) : Layer where
  ackMsgRecvTooEarly := none
  cloned := false
  config := Config.default
  secret := none
  ephemeralPubkey := xpub r
  ephemeralKp := some ⟨r, xpub r⟩
  orphanNonces := ∅
  peerEpk := none
  peerSigPubkey := e
  nextNonceExpected := 0
  nextNonceSent := 0
  status := .ongoing .created .waitConnectMsg
  tmpStack := []

theorem run0 (oc : Bool) (r : Bytes) (e : Option Bytes) :
    Spec.Run (env oc) (start r e) [] (layer0 r e) := .init rfl

/-- A writer that takes everything. -/
def sink : BufW := ⟨8192, [], ⟨[], []⟩⟩

end Pkstl.Toy
