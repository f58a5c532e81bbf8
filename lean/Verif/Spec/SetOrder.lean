import Verif.Props.ParamSets
/-! # Specification: the order in which parameter sets are given -/
namespace Ouro.Spec

/-- The identifier of the sequence parameter set that a picture parameter set names: its second number. -/
def namedSps (buf : Bytes) : Option Nat :=
  match (readUnsignedGolomb >>= fun _ => readUnsignedGolomb : BR Nat) (newBitReader buf) with
  | .ok (.ok k, _) => some k
  | _ => none

/-- The same for a call; `none` if it is not about a picture parameter set. -/
def names : SetOp → Option Nat
  | .sps _ => none
  | .pps buf => namedSps buf
  | .sprop [] => none
  | .sprop (h :: buf) => if h.toNat % 32 = 8 then namedSps buf else none

/-- Calls one after the other: each with the error it returned, and the store at the end. A panic ends it. -/
def setResults (inf : Nat) : List SetOp → ParameterSets → Go (List (SetOp × Option H264Err) × ParameterSets)
  | [], s => .ok ([], s)
  | op :: ops, s =>
    match op.run inf s with
    | .error p => .error p
    | .ok (e, s') =>
      match setResults inf ops s' with
      | .error p => .error p
      | .ok (r, t) => .ok ((op, e) :: r, t)

/-- Each picture parameter set comes after the sequence parameter set it names, if that is given at all. -/
def SpsFirst (inf : Nat) (ops : List SetOp) : Prop :=
  ∀ pre op post, ops = pre ++ op :: post → ∀ k, names op = some k → (∃ o ∈ post, ∃ j, StoresSPS inf o k j) → ∃ o ∈ pre, ∃ j, StoresSPS inf o k j

/-- No two different sequence parameter sets with the same identifier (the same one may be given more than once). -/
def OneSps (inf : Nat) (ops : List SetOp) : Prop := ∀ a ∈ ops, ∀ b ∈ ops, ∀ id i j, StoresSPS inf a id i → StoresSPS inf b id j → i = j

/-- No two different picture parameter sets with the same identifier, with the sequence parameter sets of `s`. -/
def OnePps (inf : Nat) (s : ParameterSets) (ops : List SetOp) : Prop := ∀ a ∈ ops, ∀ b ∈ ops, ∀ id i j, StoresPPS inf s a id i → StoresPPS inf s b id j → i = j

end Ouro.Spec
