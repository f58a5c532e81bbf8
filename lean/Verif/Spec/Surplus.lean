import Verif.Model.ParamSets
/-!
# Data behind a parameter set (C145)

What `ParseSPS`, `ParsePPS` or `ParseSprop` is given can be longer than the set it holds (padding, trailing bits, another
structure) or shorter (a cut). The words below speak about the returned error and the store afterwards only.
-/
namespace Ouro.Spec

/-- The call returned no error. -/
def TakenIn (res : Go (Option H264Err × ParameterSets)) : Prop := ∃ st, res = .ok (none, st)

/-- The call returned an error and left the store as it was. -/
def TurnedDown (st : ParameterSets) (res : Go (Option H264Err × ParameterSets)) : Prop := ∃ e, res = .ok (some e, st)

/-- Whatever is put behind `data`, the call has the same outcome. -/
def SurplusIgnored (call : Bytes → Go (Option H264Err × ParameterSets)) (data : Bytes) : Prop :=
  ∀ more, call (data ++ more) = call data

/-- Every cut of `data` is turned down or has the same outcome as the whole. -/
def CutSafe (st : ParameterSets) (call : Bytes → Go (Option H264Err × ParameterSets)) (data : Bytes) : Prop :=
  ∀ k, TurnedDown st (call (data.take k)) ∨ call (data.take k) = call data

end Ouro.Spec
