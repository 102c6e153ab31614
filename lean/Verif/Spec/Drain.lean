import Verif.Spec.Window
/- C32: what draining hands over, in terms of the early messages only. -/
namespace Pkstl.Spec

/-- The messages `l` (number and content, in order of arrival) fit: no number comes twice and none is overtaken by more than
10000 others. -/
def Orderly (l : List (Nat × Bytes)) : Prop :=
  (l.map Prod.fst).Nodup ∧ ∀ m, (overtakers (l.map Prod.fst) m).length ≤ 10000

/-- `Drained l r`: with the early messages `l` draining answers `r`. -/
inductive Drained (l : List (Nat × Bytes)) : Res (List Message) → Prop where
  /-- everything fits: everything is handed over, in order of arrival -/
  | all (h : Orderly l) : Drained l (.ok (l.map fun x => .message (present x.2)))
  /-- the first message that does not fit is a repetition -/
  | repeated {l1 l2 : List (Nat × Bytes)} {x : Nat × Bytes} (hl : l = l1 ++ x :: l2) (h : Orderly l1)
      (hx : x.1 ∈ l1.map Prod.fst) : Drained l (.err (.recvInvalidMsg .invalidNonce))
  /-- the first message that does not fit is one too many -/
  | tooMany {l1 l2 : List (Nat × Bytes)} {x : Nat × Bytes} (hl : l = l1 ++ x :: l2) (h : Orderly l1)
      (hx : x.1 ∉ l1.map Prod.fst) (hm : ¬ Orderly (l1 ++ [x])) : Drained l (.err .tooManyUnorderedMsgs)

end Pkstl.Spec
