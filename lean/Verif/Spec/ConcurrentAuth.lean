import Verif.Model.ConcurrentAuth
import Verif.Spec.Digest
/-! # Requests authorized at the same time: what each has to carry -/
namespace Ouro.Spec

/-- The challenges answered in a schedule, in their order, each with its random bytes. -/
def answered (base : Bytes) (ts : List AuthTurn) : List (Digest × Bytes) :=
  ts.filterMap fun
    | .challenge c rnd => (newDigest base c).toOption.map fun d0 => (d0, rnd)
    | _ => none

/-- The first eight hexadecimal digits of the random bytes. -/
def nonceOf (rnd : Bytes) : Bytes := (hexEncode rnd).take 8

/-- What a request with that verb and no body has to carry after a challenge: for Basic, user and password in base64; for Digest, the value of RFC
2617 with nonce count 1. -/
def carries (md5 : Bytes → Bytes) (user password : Bytes) (c : Digest × Bytes) (verb : Bytes) : Bytes :=
  if c.1.basic then b!"Basic " ++ b64Encode (user ++ b!":" ++ password)
  else authorization user c.1.realm c.1.nonce c.1.uri c.1.algorithm c.1.opaque_ c.1.qop b!"00000001" (nonceOf c.2)
    (requestDigest (fun b => hexEncode (md5 b)) (c.1.algorithm = b!"md5-sess") user c.1.realm password c.1.nonce b!"00000001" (nonceOf c.2)
      c.1.qop verb c.1.uri [])

section
variable (md5 : Bytes → Bytes) (base user password : Bytes)

/-- After the schedule, call `i`, for a request with the verb, is at `pc`. -/
def CallAt (ts : List AuthTurn) (i : Nat) (verb : Bytes) (pc : AuthPc) : Prop :=
  (authTurns md5 base user password ts).calls[i]? = some (verb, pc)

/-- The latest call that hashed its verb for challenge `o` was one for `verb`. -/
def LatestHash (ts : List AuthTurn) (o : Nat) (verb : Bytes) : Prop :=
  ∃ p j q, ts = p ++ .go j :: q ∧ CallAt md5 base user password p j verb (.bound o) ∧
    ∀ p' j' q', q = p' ++ .go j' :: q' → ∀ verb', ¬ CallAt md5 base user password (p ++ .go j :: p') j' verb' (.bound o)

/-- Whenever a call finishes its Authorization value, the latest verb hashed for its challenge was its own. -/
def OwnHash (ts : List AuthTurn) : Prop :=
  ∀ p i q, ts = p ++ .go i :: q → ∀ verb o v, CallAt md5 base user password p i verb (.key o v) →
    ∀ verb', LatestHash md5 base user password p o verb' → verb' = verb

/-- Every finished request carries what it has to carry after the challenge it was bound to. -/
def AllOwn (ts : List AuthTurn) : Prop :=
  ∀ i verb o a, CallAt md5 base user password ts i verb (.done o a) →
    ∃ c, (answered base ts)[o]? = some c ∧ a = carries md5 user password c verb

/-- A call between writing and reading the hash of its verb, for challenge `o`. -/
def Hashing (o : Nat) : AuthPc → Prop
  | .hashed o' | .keyed o' _ | .rekeyed o' | .key o' _ => o' = o
  | _ => False

/-- A schedule in which calls for different verbs are never inside that part at the same time. -/
def NoMix (ts : List AuthTurn) : Prop :=
  ∀ p, p <+: ts → ∀ (i j : Nat) (v w : Bytes) (a b : AuthPc) (o : Nat), CallAt md5 base user password p i v a →
    CallAt md5 base user password p j w b → Hashing o a → Hashing o b → v = w
end

end Ouro.Spec
