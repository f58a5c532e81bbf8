import Verif.Model.ParamSets
/-!
# The parsers of /repo/net/h264/spspps.go with their steps counted

The same functions as in Model/Bits and Model/ParamSets, which count how often `ReadBits` is called and how often a loop body is entered.
`ReadBits` itself takes at most four rounds (bits.go:38-43). Everything else between two calls is a fixed amount of work, but for `make` in line
330, of which C98 speaks. `C119_same` says that these functions return what those without counting return.
-/
namespace Ouro

/-- A method of `*BitReader`, and the number of steps it took. -/
def CR (α : Type) := BitReader → Go (Except H264Err α × BitReader) × Nat

namespace CR
/-- Return a value. -/
def ret {α : Type} (a : α) : CR α := fun r => (.ok (.ok a, r), 0)
/-- Panic. -/
def panic {α : Type} (p : Panic) : CR α := fun _ => (.error p, 0)
/-- As `BR.andThen`. -/
def andThen {α β : Type} (m : CR α) (f : α → CR β) : CR β := fun r =>
  match m r with
  | (.error p, k) => (.error p, k)
  | (.ok (.error e, r'), k) => (.ok (.error e, r'), k)
  | (.ok (.ok a, r'), k) => ((f a r').1, k + (f a r').2)
/-- One round of a loop. -/
def round : CR Unit := fun r => (.ok (.ok (), r), 1)
end CR

instance : Monad CR where
  pure := CR.ret
  bind := CR.andThen

/-- bits.go:32-48 `ReadBits`: one step. -/
def cReadBits (n : Nat) : CR Nat := fun r => (readBits n r, 1)

/-- bits.go:53-59 `ReadByteBits`. -/
def cReadByteBits (n : Nat) : CR UInt8 := do
  let v ← cReadBits (if n > 8 then 8 else n)
  pure (UInt8.ofNat v)

/-- bits.go:64-67 `ReadFlag`. -/
def cReadFlag : CR Bool := do
  let v ← cReadBits 1
  pure (v != 0)

/-- bits.go:72-79 -/
def cGolombZeros : Nat → Nat → CR Nat
  | 0, _ => CR.panic .fuel
  | fuel + 1, zeroes => do
    let v ← cReadBits 1
    if v = 0 then cGolombZeros fuel (zeroes + 1) else pure zeroes

/-- bits.go:71-87 `ReadUnsignedGolomb`. -/
def cReadUE : CR Nat := fun r =>
  (do
    let zeroes ← cGolombZeros (r.available + 1) 0
    let v ← cReadBits zeroes
    pure (u32 (u32 (v + u32 (1 <<< zeroes)) + 4294967295)) : CR Nat) r

/-- bits.go:91-100 `ReadSignedGolomb`. -/
def cReadSE : CR Int := do
  let uval ← cReadUE
  if uval &&& 1 = 0 then pure (i32 (-(i32 ((uval / 2 : Nat) : Int))))
  else pure (i32 ((u32 (uval + 1) / 2 : Nat) : Int))

/-- bits.go:109-123 -/
def cScalingLoop : (todo : Nat) → (done : List Int) → (first : Bool) → (lastScale nextScale : Int) →
    (useDefault : Bool) → CR (List Int × Bool)
  | 0, done, _, _, _, ud => pure (done, ud)
  | todo + 1, done, first, last, next, ud => do
    CR.round
    let (next, ud) ←
      (if next ≠ 0 then do
        let delta ← cReadSE
        let next' := Int.tmod (i32 (i32 (last + delta) + 256)) 256
        pure (next', first && next' == 0)
      else pure (next, ud) : CR (Int × Bool))
    if next = 0 then cScalingLoop todo (done ++ [last]) false last next ud
    else cScalingLoop todo (done ++ [next]) false next next ud

/-- bits.go:105-125 `ReadScalingList`. -/
def cReadScalingList (n : Nat) : CR (List Int × Bool) := cScalingLoop n [] true 8 8 false

/-- spspps.go:150-164 and 386-400 -/
def cScalingMatrixLoop : (todo i off size : Nat) → ScalingMatrix → CR ScalingMatrix
  | 0, _, _, _, m => pure m
  | todo + 1, i, off, size, m => do
    CR.round
    let present ← cReadFlag
    let m ←
      (if present then
        if off + size ≤ 480 ∧ i < 12 then do
          let (l, ud) ← cReadScalingList size
          pure { present := m.present ||| (1 <<< i), list := writeSlice m.list off l,
                 useDefault := m.useDefault.set i ud }
        else CR.panic .slice
      else pure m : CR ScalingMatrix)
    cScalingMatrixLoop todo (i + 1) (off + size) (if i ≥ 5 then 64 else size) m

/-- spspps.go:124-165 -/
def cParseSpsHigh : CR SpsHighInfo := do
  let chroma ← cReadUE
  let separate ← (if chroma = 3 then cReadFlag else pure false : CR Bool)
  let depthLuma ← cReadUE
  let depthChroma ← cReadUE
  let bypass ← cReadFlag
  let matrixPresent ← cReadFlag
  let matrix ← (if matrixPresent then
      cScalingMatrixLoop (if chroma = 3 then 12 else 8) 0 0 16 ScalingMatrix.zero
    else pure ScalingMatrix.zero : CR ScalingMatrix)
  pure ⟨chroma, separate, depthLuma, depthChroma, bypass, matrixPresent, matrix⟩

/-- spspps.go:190-194 -/
def cSkipSigned : Nat → CR Unit
  | 0 => pure ()
  | n + 1 => do
    CR.round
    let _ ← cReadSE
    cSkipSigned n

/-- spspps.go:170-195 -/
def cParseSpsPoc : CR SpsPocInfo := do
  let typ ← cReadUE
  if typ = 0 then do
    let log2Max ← cReadUE
    pure ⟨typ, log2Max, false, 0, 0, 0⟩
  else do
    let delta ← cReadFlag
    let nonRef ← cReadSE
    let topBottom ← cReadSE
    let num ← cReadUE
    let _ ← cSkipSigned num
    pure ⟨typ, 0, delta, nonRef, topBottom, num⟩

/-- spspps.go:225-238 -/
def cParseSpsCrop (present : Bool) : CR (Nat × Nat × Nat × Nat) :=
  if present then do
    let l ← cReadUE
    let r ← cReadUE
    let t ← cReadUE
    let b ← cReadUE
    pure (l, r, t, b)
  else pure (0, 0, 0, 0)

/-- spspps.go:102-263 `ParseSPS` up to the point where the set is stored. -/
def cParseSpsBits : CR SPSInfo := do
  let profile ← cReadByteBits 8
  let constraint ← cReadByteBits 8
  let level ← cReadByteBits 8
  let id ← cReadUE
  let hi ← (if isHighProfile profile then cParseSpsHigh
    else pure ⟨if profile ≠ 183 then 1 else 0, false, 0, 0, false, false, ScalingMatrix.zero⟩ : CR SpsHighInfo)
  let log2MaxFrameNum ← cReadUE
  let poc ← cParseSpsPoc
  let maxNumRefFrames ← cReadUE
  let gaps ← cReadFlag
  let w ← cReadUE
  let h ← cReadUE
  let f0 ← cReadUE
  let f := if (constraint &&& 2) ≠ 0 ∧ (profile = 77 ∨ profile = 88 ∨ profile = 100) then 1 else f0
  let mbaff ← (if f ≠ 0 then cReadFlag else pure false : CR Bool)
  let direct ← cReadFlag
  let cropping ← cReadFlag
  let (cl, cr, ct, cb) ← cParseSpsCrop cropping
  let vui ← cReadFlag
  pure {
    profileIdc := profile, constraintSet := constraint, levelIdc := level, spsID := id,
    chromaFormatIdc := hi.chroma, separateColorPlane := hi.separate, bitDepthLuma := hi.depthLuma,
    bitDepthChroma := hi.depthChroma, zeroTransformBypass := hi.bypass, scalingMatrixPresent := hi.matrixPresent,
    scaling := hi.matrix, log2MaxFrameNum := log2MaxFrameNum, picOrderCntType := poc.typ,
    log2MaxPicOrderCnt := poc.log2Max, deltaPicOrderAlways0 := poc.deltaAlways0, offsetForNonRefPic := poc.offNonRef,
    offsetForTopToBottomField := poc.offTopBottom, numRefFramesInPicOrderCntCycle := poc.numRef,
    maxNumRefFrames := maxNumRefFrames, gapsInFrameNumValueAllowed := gaps, picWidthInMbsMinus1 := w,
    picHeightInMapUnitsMinus1 := h, frameMbsOnly := f, mbAdaptiveFrameField := mbaff, direct8x8Inference := direct,
    frameCropping := cropping, cropLeft := cl, cropRight := cr, cropTop := ct, cropBottom := cb,
    vuiParametersPresent := vui,
    width := spsWidth w cl cr (subWidthC hi.separate hi.chroma),
    height := spsHeight f h ct cb (subHeightC hi.separate hi.chroma) }

/-- spspps.go:101-266 `ParseSPS`, with its steps. -/
def cParseSPS (s : ParameterSets) (buf : Bytes) : Go (Option H264Err × ParameterSets) × Nat :=
  match cParseSpsBits (newBitReader buf) with
  | (.error p, k) => (.error p, k)
  | (.ok (.error e, _), k) => (.ok (some e, s), k)
  | (.ok (.ok sps, _), k) =>
    (.ok (none, { s with spset := fun id => if id = sps.spsID then some sps else s.spset id }), k)

/-- spspps.go:300-304 -/
def cRunLengthLoop : (todo i : Nat) → List Nat → CR (List Nat)
  | 0, _, a => pure a
  | todo + 1, i, a => do
    CR.round
    if i < 8 then do
      let v ← cReadUE
      cRunLengthLoop todo (i + 1) (a.set i v)
    else CR.panic .index

/-- spspps.go:307-314 -/
def cRectLoop : (todo i : Nat) → List Nat → List Nat → CR (List Nat × List Nat)
  | 0, _, a, b => pure (a, b)
  | todo + 1, i, a, b => do
    CR.round
    if i < 8 then do
      let v ← cReadUE
      let w ← cReadUE
      cRectLoop todo (i + 1) (a.set i v) (b.set i w)
    else CR.panic .index

/-- spspps.go:332-336 -/
def cGroupIdLoop (bits : Nat) : (todo : Nat) → Bytes → CR Bytes
  | 0, acc => pure acc
  | todo + 1, acc => do
    CR.round
    let v ← cReadByteBits bits
    cGroupIdLoop bits todo (acc ++ [v])

/-- spspps.go:294-338 -/
def cParseSliceGroups (inf n : Nat) : CR SliceGroups :=
  if n > 0 then do
    let typ ← cReadUE
    if typ = 0 then do
      let a ← cRunLengthLoop (n + 1) 0 (List.replicate 8 0)
      pure { mapType := typ, runLength := a }
    else if typ = 2 then do
      let (a, b) ← cRectLoop n 0 (List.replicate 8 0) (List.replicate 8 0)
      pure { mapType := typ, topLeft := a, bottomRight := b }
    else if typ = 5 then do
      let dir ← cReadFlag
      let rate ← cReadUE
      pure { mapType := typ, changeDirection := dir, changeRate := rate }
    else if typ = 6 then do
      let size ← cReadUE
      if u32 (size + 1) = 0 then CR.panic .index
      else do
        let ids ← cGroupIdLoop (groupIdBits inf n) (size + 1) []
        pure { mapType := typ, picSize := size, groupID := ids }
    else pure { mapType := typ }
  else pure {}

/-- spspps.go:369-405 -/
def cParsePpsExt (chroma : Nat) : CR PpsExtInfo := fun r =>
  if r.available > 0 then
    (do
      let t ← cReadFlag
      let present ← cReadFlag
      let m ← (if present then
          cScalingMatrixLoop (if t then (if chroma = 3 then 12 else 8) else 6) 0 0 16 ScalingMatrix.zero
        else pure ScalingMatrix.zero : CR ScalingMatrix)
      let second ← cReadSE
      pure ⟨t, present, m, second⟩ : CR PpsExtInfo) r
  else (.ok (.ok ⟨false, false, ScalingMatrix.zero, 0⟩, r), 0)

/-- spspps.go:273-405 `ParsePPS` up to the point where the set is stored. -/
def cParsePpsBits (inf : Nat) (spset : Nat → Option SPSInfo) : CR PPSInfo := do
  let ppsID ← cReadUE
  let spsID ← cReadUE
  let entropy ← cReadFlag
  let bottomField ← cReadFlag
  let n ← cReadUE
  let g ← cParseSliceGroups inf n
  let l0 ← cReadUE
  let l1 ← cReadUE
  let wp ← cReadFlag
  let wb ← cReadByteBits 2
  let qp ← cReadSE
  let qs ← cReadSE
  let cq ← cReadSE
  let deblock ← cReadFlag
  let intra ← cReadFlag
  let redundant ← cReadFlag
  let ext ← cParsePpsExt (match spset spsID with | some sps => sps.chromaFormatIdc | none => 3)
  pure {
    ppsID := ppsID, spsID := spsID, entropyCodingMode := entropy, bottomFieldPicOrder := bottomField,
    numSliceGroupsMinus1 := n, sliceGroupMapType := g.mapType, runLengthMinus1 := g.runLength, topLeft := g.topLeft,
    bottomRight := g.bottomRight, sliceGroupChangeDirection := g.changeDirection,
    sliceGroupChangeRateMinus1 := g.changeRate, picSizeInMapUnitsMinus1 := g.picSize, sliceGroupID := g.groupID,
    numRefIdxL0DefaultActiveMinus1 := l0, numRefIdxL1DefaultActiveMinus1 := l1, weightedPred := wp,
    weightedBipredIdc := wb, picInitQpMinus26 := qp, picInitQsMinus26 := qs, chromaQpIndexOffset := cq,
    deblockingFilterControlPresent := deblock, constrainedIntraPred := intra, redundantPicCntPresent := redundant,
    transform8x8Mode := ext.transform8x8, scalingMatrixPresent := ext.matrixPresent, scaling := ext.matrix,
    secondChromaQpIndexOffset := ext.secondChroma }

/-- spspps.go:272-408 `ParsePPS`, with its steps. -/
def cParsePPS (inf : Nat) (s : ParameterSets) (buf : Bytes) : Go (Option H264Err × ParameterSets) × Nat :=
  match cParsePpsBits inf s.spset (newBitReader buf) with
  | (.error p, k) => (.error p, k)
  | (.ok (.error e, _), k) => (.ok (some e, s), k)
  | (.ok (.ok pps, _), k) =>
    (.ok (none, { s with ppset := fun id => if id = pps.ppsID then some pps else s.ppset id }), k)

/-- spspps.go:412-423 `ParseSprop`, with its steps. -/
def cParseSprop (inf : Nat) (s : ParameterSets) (buf : Bytes) : Go (Option H264Err × ParameterSets) × Nat :=
  match buf with
  | [] => (.ok (none, s), 0)
  | b0 :: rest =>
    if b0 &&& 0x1F = 7 then cParseSPS s rest
    else if b0 &&& 0x1F = 8 then cParsePPS inf s rest
    else (.ok (none, s), 0)

end Ouro
