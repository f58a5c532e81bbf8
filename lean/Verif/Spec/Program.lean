import Verif.Spec.Main
import Verif.Model.Program
/-! # The program as its user sees it -/
namespace Ouro.Spec

/-- An argument that is taken for a flag: `-` and more. -/
def Dashed (a : Bytes) : Prop := ∃ c t, a = b!"-" ++ c :: t

/-- The arguments are one address: alone, or after `--`, which ends the flags. -/
def GivenAddress (args : List Bytes) (u : Bytes) : Prop := (args = [u] ∧ ¬ Dashed u) ∨ args = [b!"--", u]

/-- The first argument asks for help: `-h` or `-help`, with one dash or two, perhaps with a value. -/
def AsksHelp (args : List Bytes) : Prop :=
  ∃ dash word value rest, args = (dash ++ word ++ value) :: rest ∧ (dash = b!"-" ∨ dash = b!"--") ∧ (word = b!"h" ∨ word = b!"help") ∧
    (value = [] ∨ value.head? = some 0x3D)

/-- The client that the program runs on an address comes to be `c`. -/
def ProgramRuns (w : World) (connect : Bytes → Option Rdr) (n : Nat) (es : List CEv) (u : Bytes) (c : Client) : Prop :=
  ∃ d rdr c0, dial u = some d ∧ connect d.addr = some rdr ∧ clientEarly w d.base d.user rdr n = .ok c0 ∧ csteps w c0 es = .ok c

/-- It has gone all the way: played, paused, closed. -/
def WellDone (c : Client) : Prop := milestones c.trace = course

/-- It has ended on a packet. -/
def EndedOnPacket (c : Client) : Prop := ∃ ch p older, c.trace = .ended .badPacket :: .packet ch p :: older ∧ BadPacket ch p

end Ouro.Spec
