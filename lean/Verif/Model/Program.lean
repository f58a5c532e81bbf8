import Verif.Model.Main
import Verif.Model.Dial
/-!
# Model of the program, cmd/ouro/main.go:96-111

From its arguments to its exit status. The client it runs is that of Model/Main. The package `flag` is modelled after the sources of
Go 1.20, for a program that defines no flags. Signals are left out.
-/
namespace Ouro

/-- What `flag.Parse` (main.go:98) does: it ends the program after the usage was asked for (status 0), or after an error (status 2), or it leaves
arguments. -/
inductive Flags | help | bad | rest (args : List Bytes)
  deriving DecidableEq, Repr

/-- The name of a flag ends at `=`, which is not looked for in the first place. -/
def flagName : Bytes → Bytes
  | [] => []
  | c :: t => c :: t.takeWhile (· ≠ 0x3D)

/-- The rest of `parseOne` for the text after the dashes, when no flag is defined. -/
def flagEnd (name : Bytes) : Flags :=
  if name.head? = some 0x2D ∨ name.head? = some 0x3D then .bad
  else if flagName name = b!"help" ∨ flagName name = b!"h" then .help
  else .bad

/-- `flag.Parse` (main.go:97), Go's `FlagSet.Parse` and `parseOne` with no flag defined: whatever looks like a flag ends the program. -/
def flagParse (args : List Bytes) : Flags :=
  match args with
  | [] => .rest []
  | s :: rest =>
    match s with
    | 0x2D :: c :: t =>
      if c = 0x2D then (if t = [] then .rest rest else flagEnd t)
      else flagEnd (c :: t)
    | _ => .rest (s :: rest)

/-- How the program is: over, with a status, or going on. -/
inductive Result
  | exited (status : Nat)
  | going (c : Client)

/-- What is seen of the program from outside: the address it asked the network to connect to, and how it is. -/
structure Ran where
  contacted : Option Bytes
  result : Result

/-- The status of a client that has ended: `log.Fatal` is 1; `main` returns after `handleStates` (main.go:110), which is 0. -/
def exitStatus (c : Client) : Nat :=
  match c.trace.head? with
  | some (.ended .fatal) => 1
  | _ => 0

/-- main.go:96-111 `main`. `connect` says what a connection to an address delivers, if it can be made; `n` turns of `process` come before
OPTIONS is sent; `es` is what happens then. A panic, in `log.Panic` (main.go:99) or anywhere else, ends the program with status 2,
`log.Fatalln` (main.go:108) with 1. -/
def program (w : World) (connect : Bytes → Option Rdr) (n : Nat) (es : List CEv) (args : List Bytes) : Ran :=
  match flagParse args with
  | .help => ⟨none, .exited 0⟩
  | .bad => ⟨none, .exited 2⟩
  | .rest [u] =>
    match dial u with
    | none => ⟨none, .exited 1⟩
    | some d =>
      match connect d.addr with
      | none => ⟨some d.addr, .exited 1⟩
      | some rdr =>
        match clientEarly w d.base d.user rdr n with
        | .error _ => ⟨some d.addr, .exited 2⟩
        | .ok c =>
          match csteps w c es with
          | .error _ => ⟨some d.addr, .exited 2⟩
          | .ok c => ⟨some d.addr, if c.ended then .exited (exitStatus c) else .going c⟩
  | .rest _ => ⟨none, .exited 2⟩

end Ouro
