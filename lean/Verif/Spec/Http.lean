import Verif.Spec.Message
/-! # RTSP over HTTP: base64 (RFC 4648) as a receiver reads it, and the answer to GET -/
namespace Ouro.Spec

def alphabet : Bytes := b!"ABCDEFGHIJKLMNOPQRSTUVWXYZabcdefghijklmnopqrstuvwxyz0123456789+/"

/-- The value of a character: its place in the alphabet. -/
def sextet (c : UInt8) : Option Nat := if alphabet.contains c then some (alphabet.idxOf c) else none

/-- Four characters are up to three bytes: 24 bits, fewer with padding (`=` is 61). -/
def decodeQuad (a b c d : UInt8) : Option Bytes :=
  match sextet a, sextet b with
  | some a, some b =>
    if c = 61 then (if d = 61 then some [UInt8.ofNat ((a * 64 + b) / 16)] else none)
    else match sextet c with
      | none => none
      | some c =>
        if d = 61 then some [UInt8.ofNat ((a * 64 + b) / 16), UInt8.ofNat (((a * 64 + b) * 64 + c) / 4)]
        else match sextet d with
          | none => none
          | some d =>
            some [UInt8.ofNat ((a * 64 + b) / 16), UInt8.ofNat (((a * 64 + b) * 64 + c) / 4), UInt8.ofNat (((a * 64 + b) * 64 + c) * 64 + d)]
  | _, _ => none

/-- Decode a stream of groups of four characters, padded groups anywhere. -/
def decodeStream : Bytes → Option Bytes
  | [] => some []
  | a :: b :: c :: d :: t =>
    match decodeQuad a b c d, decodeStream t with
    | some x, some y => some (x ++ y)
    | _, _ => none
  | _ => none

/-- An answer to GET: version, status and header; the stream follows. -/
structure HttpAnswer where
  version : Bytes
  code : Nat
  reason : Bytes
  headers : List SentHeader

def HttpAnswer.text (s : HttpAnswer) : Bytes :=
  s.version ++ b!" " ++ natDigits s.code ++ b!" " ++ s.reason ++ [13, 10] ++ s.headers.flatMap SentHeader.text ++ [13, 10]

structure HttpAnswer.WF (s : HttpAnswer) : Prop where
  version : (32 : UInt8) ∉ s.version ∧ (10 : UInt8) ∉ s.version
  code : 100 ≤ s.code ∧ s.code ≤ 999
  reason : IsText s.reason
  headers : ∀ h ∈ s.headers, h.WF

end Ouro.Spec
