import Verif.Spec.Wire
import Verif.Spec.Session
import Verif.Spec.History
/- The replay window, seen from outside: a list of delivered numbers. -/
namespace Pkstl.Spec

/-- The ciphertext of the user message with number `n` and payload `p` under the session key `k`. -/
def cipherOf (cr : Crypto) (k : SecretKey) (n : Nat) (p : Bytes) : Bytes :=
  aeadSeal cr k (userFrame n p ++ cr.sha256 (userFrame n p))

/-- The user messages delivered by the call `e` have the numbers and payloads `l`; a call of `read` is
charged with exactly the ciphertext it was given. -/
def Carries (cr : Crypto) (sec : Option SecretKey) (e : Event) (l : List (Nat × Bytes)) : Prop :=
  userPayloads e.delivers = l.map (fun x => present x.2) ∧ (∀ x ∈ l, x.1 < 2 ^ 64) ∧
  ∀ inc r, e = .read inc r → ∀ x ∈ l, ∃ k, sec = some k ∧ inc = cipherOf cr k x.1 x.2

/-- Numbers in `D` that wait for a smaller number that is not in `D`. -/
def pending (D : List Nat) : List Nat := D.filter fun m => decide (∃ l < m, l ∉ D)

/-- Number `n` may be delivered when the numbers `D` have been delivered. -/
def Deliverable (D : List Nat) (n : Nat) : Prop :=
  n ∉ D ∧ ((∀ m < n, m ∈ D) ∨ (pending D).length < 10000)

instance (D : List Nat) (n : Nat) : Decidable (Deliverable D n) := by
  unfold Deliverable; infer_instance

/-- No user message got lost inside the layer: draining never failed and nothing panicked. -/
def Event.regular : Event → Prop
  | .read _ (.panic _) => False
  | .drain (.err _) => False
  | .drain (.panic _) => False
  | _ => True

instance : DecidablePred Event.regular := fun e => by
  unfold Event.regular
  split <;> infer_instance

/-- Hand several inputs to `read`, one after the other; the results in order. -/
def readAll (env : Env) (s : Layer) : List Bytes → Layer × List (Res (Option Message))
  | [] => (s, [])
  | b :: bs =>
    let r := s.read env b
    let rs := readAll env r.1 bs
    (rs.1, r.2 :: rs.2)

/-- The numbers in `l` larger than `n` that stand in front of `n`. -/
def overtakers (l : List Nat) (n : Nat) : List Nat := (l.takeWhile (· ≠ n)).filter (n < ·)

/-- The encrypted inputs that `read` answered with `Ok(None)`: the early user messages, in order. -/
def early (h : List Event) : List Bytes :=
  h.filterMap fun e => match e with
    | .read b (.ok none) => if b.take 4 = [0xE2, 0xC2, 0xE2, 0xD2] then none else some b
    | _ => none

end Pkstl.Spec
