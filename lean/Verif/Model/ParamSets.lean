import Verif.Model.Bits
/-!
# Model of /repo/net/h264/spspps.go

`uint32` fields are `Nat`, `int32` fields `Int`. Pointers to `SPSInfo`/`PPSInfo` are values: the code never writes to a
set after storing it. On an error the half-filled `sps`/`pps` object is unreachable, so the parsers below return the
finished object only. Memory exhaustion by `make` (line 330) is not modelled.
-/
namespace Ouro

/-- spspps.go:20-23, 74-77: the scaling matrix fields shared by `SPSInfo` and `PPSInfo`. `list` stands for the array
`ScalingList [6*16 + 6*64]int32`, `useDefault` for `UseDefaultScalingMatrix [12]bool`. -/
structure ScalingMatrix where
  present : Nat
  list : List Int
  useDefault : List Bool
  deriving DecidableEq, Repr

/-- The zero value of those fields. -/
def ScalingMatrix.zero : ScalingMatrix := ⟨0, List.replicate 480 0, List.replicate 12 false⟩

/-- spspps.go:10-46 `SPSInfo`. -/
structure SPSInfo where
  profileIdc : UInt8
  constraintSet : UInt8
  levelIdc : UInt8
  spsID : Nat
  chromaFormatIdc : Nat
  separateColorPlane : Bool
  bitDepthLuma : Nat
  bitDepthChroma : Nat
  zeroTransformBypass : Bool
  scalingMatrixPresent : Bool
  scaling : ScalingMatrix
  log2MaxFrameNum : Nat
  picOrderCntType : Nat
  log2MaxPicOrderCnt : Nat
  deltaPicOrderAlways0 : Bool
  offsetForNonRefPic : Int
  offsetForTopToBottomField : Int
  numRefFramesInPicOrderCntCycle : Nat
  maxNumRefFrames : Nat
  gapsInFrameNumValueAllowed : Bool
  picWidthInMbsMinus1 : Nat
  picHeightInMapUnitsMinus1 : Nat
  frameMbsOnly : Nat
  mbAdaptiveFrameField : Bool
  direct8x8Inference : Bool
  frameCropping : Bool
  cropLeft : Nat
  cropRight : Nat
  cropTop : Nat
  cropBottom : Nat
  vuiParametersPresent : Bool
  width : Nat
  height : Nat
  deriving DecidableEq, Repr

/-- spspps.go:49-79 `PPSInfo`. `runLengthMinus1`, `topLeft`, `bottomRight` stand for arrays of eight elements. -/
structure PPSInfo where
  ppsID : Nat
  spsID : Nat
  entropyCodingMode : Bool
  bottomFieldPicOrder : Bool
  numSliceGroupsMinus1 : Nat
  sliceGroupMapType : Nat
  runLengthMinus1 : List Nat
  topLeft : List Nat
  bottomRight : List Nat
  sliceGroupChangeDirection : Bool
  sliceGroupChangeRateMinus1 : Nat
  picSizeInMapUnitsMinus1 : Nat
  sliceGroupID : Bytes
  numRefIdxL0DefaultActiveMinus1 : Nat
  numRefIdxL1DefaultActiveMinus1 : Nat
  weightedPred : Bool
  weightedBipredIdc : UInt8
  picInitQpMinus26 : Int
  picInitQsMinus26 : Int
  chromaQpIndexOffset : Int
  deblockingFilterControlPresent : Bool
  constrainedIntraPred : Bool
  redundantPicCntPresent : Bool
  transform8x8Mode : Bool
  scalingMatrixPresent : Bool
  scaling : ScalingMatrix
  secondChromaQpIndexOffset : Int
  deriving DecidableEq, Repr

/-- spspps.go:82-85 `ParameterSets`: the two maps. -/
structure ParameterSets where
  spset : Nat → Option SPSInfo
  ppset : Nat → Option PPSInfo

/-- spspps.go:90-95 `NewParameterSets`. -/
def newParameterSets : ParameterSets := ⟨fun _ => none, fun _ => none⟩

/-- spspps.go:426-429 `GetSPS`. -/
def ParameterSets.getSPS (s : ParameterSets) (id : Nat) : Option SPSInfo := s.spset id
/-- spspps.go:432-435 `GetPPS`. -/
def ParameterSets.getPPS (s : ParameterSets) (id : Nat) : Option PPSInfo := s.ppset id

/-- Writing `new` through the slice `l[off : off+len(new)]`. -/
def writeSlice (l : List Int) (off : Nat) (new : List Int) : List Int :=
  l.take off ++ new ++ l.drop (off + new.length)

/-- spspps.go:150-164 and 386-400: the loop over scaling lists. `todo` is `nlists - i`. -/
def scalingMatrixLoop : (todo i off size : Nat) → ScalingMatrix → BR ScalingMatrix
  | 0, _, _, _, m => pure m
  | todo + 1, i, off, size, m => do
    let present ← readFlag
    let m ←
      (if present then
        if off + size ≤ 480 ∧ i < 12 then do
          let (l, ud) ← readScalingList size
          pure { present := m.present ||| (1 <<< i), list := writeSlice m.list off l,
                 useDefault := m.useDefault.set i ud }
        else BR.panic .slice
      else pure m : BR ScalingMatrix)
    scalingMatrixLoop todo (i + 1) (off + size) (if i ≥ 5 then 64 else size) m

/-- Results of spspps.go:121-166. -/
structure SpsHighInfo where
  chroma : Nat
  separate : Bool
  depthLuma : Nat
  depthChroma : Nat
  bypass : Bool
  matrixPresent : Bool
  matrix : ScalingMatrix

/-- spspps.go:121-123. -/
def isHighProfile (p : UInt8) : Bool :=
  p == 100 || p == 110 || p == 122 || p == 244 || p == 44 || p == 83 || p == 86 || p == 118 || p == 128 || p == 138

/-- spspps.go:124-165: the part read for high profiles. -/
def parseSpsHigh : BR SpsHighInfo := do
  let chroma ← readUnsignedGolomb
  let separate ← (if chroma = 3 then readFlag else pure false : BR Bool)
  let depthLuma ← readUnsignedGolomb
  let depthChroma ← readUnsignedGolomb
  let bypass ← readFlag
  let matrixPresent ← readFlag
  let matrix ← (if matrixPresent then
      scalingMatrixLoop (if chroma = 3 then 12 else 8) 0 0 16 ScalingMatrix.zero
    else pure ScalingMatrix.zero : BR ScalingMatrix)
  pure ⟨chroma, separate, depthLuma, depthChroma, bypass, matrixPresent, matrix⟩

/-- spspps.go:190-194: skip `n` signed values. -/
def skipSigned : Nat → BR Unit
  | 0 => pure ()
  | n + 1 => do
    let _ ← readSignedGolomb
    skipSigned n

/-- Results of spspps.go:170-195. -/
structure SpsPocInfo where
  typ : Nat
  log2Max : Nat
  deltaAlways0 : Bool
  offNonRef : Int
  offTopBottom : Int
  numRef : Nat

/-- spspps.go:170-195: picture order count. -/
def parseSpsPoc : BR SpsPocInfo := do
  let typ ← readUnsignedGolomb
  if typ = 0 then do
    let log2Max ← readUnsignedGolomb
    pure ⟨typ, log2Max, false, 0, 0, 0⟩
  else do
    let delta ← readFlag
    let nonRef ← readSignedGolomb
    let topBottom ← readSignedGolomb
    let num ← readUnsignedGolomb
    let _ ← skipSigned num
    pure ⟨typ, 0, delta, nonRef, topBottom, num⟩

/-- spspps.go:225-238: left, right, top, bottom crop offsets. -/
def parseSpsCrop (present : Bool) : BR (Nat × Nat × Nat × Nat) :=
  if present then do
    let l ← readUnsignedGolomb
    let r ← readUnsignedGolomb
    let t ← readUnsignedGolomb
    let b ← readUnsignedGolomb
    pure (l, r, t, b)
  else pure (0, 0, 0, 0)

/-- spspps.go:245-248: `subWidthC`. -/
def subWidthC (separate : Bool) (chroma : Nat) : Nat :=
  if separate then 1 else if chroma = 1 ∨ chroma = 2 then 2 else 1
/-- spspps.go:245-252: `subHeightC`. -/
def subHeightC (separate : Bool) (chroma : Nat) : Nat :=
  if separate then 1 else if chroma = 1 then 2 else 1

/-- Subtraction in `uint32` of two `uint32` values. -/
def sub32 (a b : Nat) : Nat := u32 (a + 4294967296 - b)

/-- spspps.go:256, 260, 262: `Width`. -/
def spsWidth (w cropL cropR subW : Nat) : Nat :=
  sub32 (u32 (u32 (w + 1) * 16)) (u32 (u32 (cropL + cropR) * subW))

/-- spspps.go:258, 261, 263: `Height`. `(2 - FrameMbsOnly) * (h + 1) * 16 / subHeightC` associates to the left. -/
def spsHeight (f h cropT cropB subH : Nat) : Nat :=
  sub32 (u32 (u32 (sub32 2 f * u32 (h + 1)) * 16) / subH) (u32 (u32 (cropT + cropB) * u32 (sub32 2 f * subH)))

/-- spspps.go:102-263: `ParseSPS` up to the point where the set is stored. -/
def parseSpsBits : BR SPSInfo := do
  let profile ← readByteBits 8
  let constraint ← readByteBits 8
  let level ← readByteBits 8
  let id ← readUnsignedGolomb
  let hi ← (if isHighProfile profile then parseSpsHigh
    else pure ⟨if profile ≠ 183 then 1 else 0, false, 0, 0, false, false, ScalingMatrix.zero⟩ : BR SpsHighInfo)
  let log2MaxFrameNum ← readUnsignedGolomb
  let poc ← parseSpsPoc
  let maxNumRefFrames ← readUnsignedGolomb
  let gaps ← readFlag
  let w ← readUnsignedGolomb
  let h ← readUnsignedGolomb
  let f0 ← readUnsignedGolomb
  let f := if (constraint &&& 2) ≠ 0 ∧ (profile = 77 ∨ profile = 88 ∨ profile = 100) then 1 else f0
  let mbaff ← (if f ≠ 0 then readFlag else pure false : BR Bool)
  let direct ← readFlag
  let cropping ← readFlag
  let (cl, cr, ct, cb) ← parseSpsCrop cropping
  let vui ← readFlag
  pure {
    profileIdc := profile, constraintSet := constraint, levelIdc := level, spsID := id,
    chromaFormatIdc := hi.chroma, separateColorPlane := hi.separate, bitDepthLuma := hi.depthLuma,
    bitDepthChroma := hi.depthChroma, zeroTransformBypass := hi.bypass, scalingMatrixPresent := hi.matrixPresent,
    scaling := hi.matrix, log2MaxFrameNum := log2MaxFrameNum, picOrderCntType := poc.typ,
    log2MaxPicOrderCnt := poc.log2Max, deltaPicOrderAlways0 := poc.deltaAlways0, offsetForNonRefPic := poc.offNonRef,
    offsetForTopToBottomField := poc.offTopBottom, numRefFramesInPicOrderCntCycle := poc.numRef,
    maxNumRefFrames := maxNumRefFrames, gapsInFrameNumValueAllowed := gaps, picWidthInMbsMinus1 := w,
    picHeightInMapUnitsMinus1 := h, frameMbsOnly := f, mbAdaptiveFrameField := mbaff, direct8x8Inference := direct,
    frameCropping := cropping, cropLeft := cl, cropRight := cr, cropTop := ct, cropBottom := cb,
    vuiParametersPresent := vui,
    width := spsWidth w cl cr (subWidthC hi.separate hi.chroma),
    height := spsHeight f h ct cb (subHeightC hi.separate hi.chroma) }

/-- spspps.go:101-266 `ParseSPS`: the returned error (`none` is nil) and the store afterwards. -/
def parseSPS (s : ParameterSets) (buf : Bytes) : Go (Option H264Err × ParameterSets) :=
  match parseSpsBits (newBitReader buf) with
  | .error p => .error p
  | .ok (.error e, _) => .ok (some e, s)
  | .ok (.ok sps, _) =>
    .ok (none, { s with spset := fun id => if id = sps.spsID then some sps else s.spset id })

/-- spspps.go:331 `math.Ceil(math.Log2(float64(x)))` for a `uint32` `x ≥ 1`: the least `k` with `x ≤ 2^k`. Go's `Log2` is exact on
powers of two and its error is below `2^-40` elsewhere, so the ceiling is exact for all 32-bit `x`. -/
def ceilLog2 (x : Nat) : Nat := if x ≤ 1 then 0 else (x - 1).log2 + 1

/-- spspps.go:331: number of bits of a slice group id. `n + 1` wraps to 0 for `n = 2^32-1`; `uint(math.Ceil(-Inf))` is
implementation defined in Go, hence the parameter `inf`. -/
def groupIdBits (inf n : Nat) : Nat := if u32 (n + 1) = 0 then inf else ceilLog2 (u32 (n + 1))

/-- Slice group data, spspps.go:294-338. -/
structure SliceGroups where
  mapType : Nat := 0
  runLength : List Nat := List.replicate 8 0
  topLeft : List Nat := List.replicate 8 0
  bottomRight : List Nat := List.replicate 8 0
  changeDirection : Bool := false
  changeRate : Nat := 0
  picSize : Nat := 0
  groupID : Bytes := []

/-- spspps.go:300-304: `RunLengthMinus1[i]` for the `todo` remaining values of `i`. In `a[i], err = f()` Go panics on an
index out of range whether or not the call returns an error, so the index is checked first. -/
def runLengthLoop : (todo i : Nat) → List Nat → BR (List Nat)
  | 0, _, a => pure a
  | todo + 1, i, a =>
    if i < 8 then do
      let v ← readUnsignedGolomb
      runLengthLoop todo (i + 1) (a.set i v)
    else BR.panic .index

/-- spspps.go:307-314: `TopLeft[i]`, `BottomRight[i]`. -/
def rectLoop : (todo i : Nat) → List Nat → List Nat → BR (List Nat × List Nat)
  | 0, _, a, b => pure (a, b)
  | todo + 1, i, a, b =>
    if i < 8 then do
      let v ← readUnsignedGolomb
      let w ← readUnsignedGolomb
      rectLoop todo (i + 1) (a.set i v) (b.set i w)
    else BR.panic .index

/-- spspps.go:332-336: the remaining `todo` slice group ids. -/
def groupIdLoop (bits : Nat) : (todo : Nat) → Bytes → BR Bytes
  | 0, acc => pure acc
  | todo + 1, acc => do
    let v ← readByteBits bits
    groupIdLoop bits todo (acc ++ [v])

/-- spspps.go:294-338: slice groups. Cases 3 and 4 of the switch are empty: Go cases do not fall through. In case 6 the
slice made has `u32 (size+1)` elements; when `size = 2^32-1` it is empty and index 0 panics. -/
def parseSliceGroups (inf n : Nat) : BR SliceGroups :=
  if n > 0 then do
    let typ ← readUnsignedGolomb
    if typ = 0 then do
      let a ← runLengthLoop (n + 1) 0 (List.replicate 8 0)
      pure { mapType := typ, runLength := a }
    else if typ = 2 then do
      let (a, b) ← rectLoop n 0 (List.replicate 8 0) (List.replicate 8 0)
      pure { mapType := typ, topLeft := a, bottomRight := b }
    else if typ = 5 then do
      let dir ← readFlag
      let rate ← readUnsignedGolomb
      pure { mapType := typ, changeDirection := dir, changeRate := rate }
    else if typ = 6 then do
      let size ← readUnsignedGolomb
      if u32 (size + 1) = 0 then BR.panic .index
      else do
        let ids ← groupIdLoop (groupIdBits inf n) (size + 1) []
        pure { mapType := typ, picSize := size, groupID := ids }
    else pure { mapType := typ }
  else pure {}

/-- Results of spspps.go:369-405. -/
structure PpsExtInfo where
  transform8x8 : Bool
  matrixPresent : Bool
  matrix : ScalingMatrix
  secondChroma : Int

/-- spspps.go:369-405: the optional tail, read when any bits are left (`Available() > 0`). -/
def parsePpsExt (chroma : Nat) : BR PpsExtInfo := fun r =>
  if r.available > 0 then
    (do
      let t ← readFlag
      let present ← readFlag
      let m ← (if present then
          scalingMatrixLoop (if t then (if chroma = 3 then 12 else 8) else 6) 0 0 16 ScalingMatrix.zero
        else pure ScalingMatrix.zero : BR ScalingMatrix)
      let second ← readSignedGolomb
      pure ⟨t, present, m, second⟩ : BR PpsExtInfo) r
  else .ok (.ok ⟨false, false, ScalingMatrix.zero, 0⟩, r)

/-- spspps.go:273-405: `ParsePPS` up to the point where the set is stored. `spset` are the known sequence parameter
sets; without the referenced one chroma format 3 is assumed. -/
def parsePpsBits (inf : Nat) (spset : Nat → Option SPSInfo) : BR PPSInfo := do
  let ppsID ← readUnsignedGolomb
  let spsID ← readUnsignedGolomb
  let entropy ← readFlag
  let bottomField ← readFlag
  let n ← readUnsignedGolomb
  let g ← parseSliceGroups inf n
  let l0 ← readUnsignedGolomb
  let l1 ← readUnsignedGolomb
  let wp ← readFlag
  let wb ← readByteBits 2
  let qp ← readSignedGolomb
  let qs ← readSignedGolomb
  let cq ← readSignedGolomb
  let deblock ← readFlag
  let intra ← readFlag
  let redundant ← readFlag
  let ext ← parsePpsExt (match spset spsID with | some sps => sps.chromaFormatIdc | none => 3)
  pure {
    ppsID := ppsID, spsID := spsID, entropyCodingMode := entropy, bottomFieldPicOrder := bottomField,
    numSliceGroupsMinus1 := n, sliceGroupMapType := g.mapType, runLengthMinus1 := g.runLength, topLeft := g.topLeft,
    bottomRight := g.bottomRight, sliceGroupChangeDirection := g.changeDirection,
    sliceGroupChangeRateMinus1 := g.changeRate, picSizeInMapUnitsMinus1 := g.picSize, sliceGroupID := g.groupID,
    numRefIdxL0DefaultActiveMinus1 := l0, numRefIdxL1DefaultActiveMinus1 := l1, weightedPred := wp,
    weightedBipredIdc := wb, picInitQpMinus26 := qp, picInitQsMinus26 := qs, chromaQpIndexOffset := cq,
    deblockingFilterControlPresent := deblock, constrainedIntraPred := intra, redundantPicCntPresent := redundant,
    transform8x8Mode := ext.transform8x8, scalingMatrixPresent := ext.matrixPresent, scaling := ext.matrix,
    secondChromaQpIndexOffset := ext.secondChroma }

/-- spspps.go:272-408 `ParsePPS`. -/
def parsePPS (inf : Nat) (s : ParameterSets) (buf : Bytes) : Go (Option H264Err × ParameterSets) :=
  match parsePpsBits inf s.spset (newBitReader buf) with
  | .error p => .error p
  | .ok (.error e, _) => .ok (some e, s)
  | .ok (.ok pps, _) =>
    .ok (none, { s with ppset := fun id => if id = pps.ppsID then some pps else s.ppset id })

/-- spspps.go:412-423 `ParseSprop`; `typeSPS` is 7, `typePPS` is 8 (packet.go:37-38). -/
def parseSprop (inf : Nat) (s : ParameterSets) (buf : Bytes) : Go (Option H264Err × ParameterSets) :=
  match buf with
  | [] => .ok (none, s)
  | b0 :: rest =>
    if b0 &&& 0x1F = 7 then parseSPS s rest
    else if b0 &&& 0x1F = 8 then parsePPS inf s rest
    else .ok (none, s)

end Ouro
