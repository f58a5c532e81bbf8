import Verif.Model.Digest
/-!
# Model of the function `Authenticate` of net/rtsp/digest.go returns, when several goroutines call it

`command` (session.go:88-109) calls `s.auth` without holding the lock, on the goroutine of the caller; `process` calls it for its own commands and
when it sends a refused request again. All these calls share the `Digest` of the challenge, whose fields `ha1` and `ha2` `response` writes. Here each
step is one access to a field that changes. Memory is sequentially consistent, which is more than Go promises for accesses without a lock. Of the
operands of `colonnade`, whose order Go leaves open, `ha1` is read first.
-/
namespace Ouro

/-- Where a call is. Challenges are numbered in the order in which they were answered. -/
inductive AuthPc
  | start                       -- session.go:96: `s.auth` has not been read
  | bare                        -- session.go:96: it was nil; the request goes without credentials
  | bound (o : Nat)             -- session.go:97: the function of challenge `o` has been called
  | hashed (o : Nat)            -- digest.go:146-150 done: `ha2` has been written
  | keyed (o : Nat) (v : Bytes) -- digest.go:157: `ha1` has been read, to be replaced
  | rekeyed (o : Nat)           -- digest.go:157 done
  | key (o : Nat) (v : Bytes)   -- digest.go:154 or 166: `ha1` has been read, `ha2` has not
  | done (o : Nat) (a : Bytes)  -- session.go:97 done: the Authorization value is `a`
  deriving DecidableEq, Repr

/-- The functions made for the challenges so far, each with the `Digest` it shares with all its calls, and the calls: the verb of each request and
where the call is. `s.auth` is the last of the functions. -/
structure AuthShared where
  funcs : List (AuthFunc × Digest) := []
  calls : List (Bytes × AuthPc) := []
  deriving DecidableEq, Repr

/-- What happens next: `authorize` (session.go:56-68) with a challenge and the random bytes of `Next`, a request with the given verb is made, or the
call with the given number goes on. -/
inductive AuthTurn
  | challenge (c rnd : Bytes)
  | call (verb : Bytes)
  | go (i : Nat)
  deriving DecidableEq, Repr

/-- `colonnade` as a plain function: it never panics (`colonnade_ok`). -/
def colonnade! (p : Bytes) (ps : List Bytes) : Bytes := ((colonnade p ps).toOption).getD []

/-- digest.go:146-150: what is written to `ha2`. The body is nil, session.go:97 and 238. -/
def newHa2 (md5 : Bytes → Bytes) (d : Digest) (verb : Bytes) : Bytes :=
  if d.qop = b!"auth-int" then md5hex md5 (colonnade! verb [d.uri, md5hex md5 []]) else md5hex md5 (colonnade! verb [d.uri])

/-- digest.go:151-169: the text of `response`, when `v` was read from `ha1`. -/
def responseText (md5 : Bytes → Bytes) (d : Digest) (v : Bytes) : Bytes :=
  if d.qop = [] then b!", response=\"" ++ md5hex md5 (colonnade! v [d.nonce, d.ha2]) ++ b!"\""
  else b!", qop=\"" ++ d.qop ++ b!"\", nc=" ++ d.nc ++ b!", cnonce=\"" ++ d.cnonce ++ b!"\", response=\"" ++
    md5hex md5 (colonnade! v [d.nonce, d.nc, d.cnonce, d.qop, d.ha2]) ++ b!"\""

/-- digest.go:145-170, one access at a time, for a call bound to the function `f` with the digest `d`. -/
def respond (md5 : Bytes → Bytes) (verb : Bytes) (f : AuthFunc) (d : Digest) : AuthPc → Digest × AuthPc
  | .bound o =>
    match f with
    | .basic a => (d, .done o a)
    | .digest _ => ({ d with ha2 := newHa2 md5 d verb }, .hashed o)
  | .hashed o => if d.qop ≠ [] ∧ d.algorithm = b!"md5-sess" then (d, .keyed o d.ha1) else (d, .key o d.ha1)
  | .keyed o v => ({ d with ha1 := md5hex md5 (colonnade! v [d.nonce, d.cnonce]) }, .rekeyed o)
  | .rekeyed o => (d, .key o d.ha1)
  | .key o v =>
    match f with
    | .basic a => (d, .done o a)
    | .digest a => (d, .done o (a ++ responseText md5 d v))
  | pc => (d, pc)

/-- The challenge a call inside the function is bound to. -/
def AuthPc.obj : AuthPc → Option Nat
  | .bound o | .hashed o | .keyed o _ | .rekeyed o | .key o _ => some o
  | _ => none

/-- session.go:96-97 and 234-238, one access at a time. `go` of a call that is not running does nothing. A challenge that cannot be answered
changes nothing (session.go:57-60). -/
def authTurn (md5 : Bytes → Bytes) (base user password : Bytes) (s : AuthShared) : AuthTurn → AuthShared
  | .challenge c rnd =>
    match newDigest base c with
    | .error _ => s
    | .ok d0 =>
      match authenticate md5 rnd d0 user password with
      | .error _ => s
      | .ok fd => { s with funcs := s.funcs ++ [fd] }
  | .call verb => { s with calls := s.calls ++ [(verb, .start)] }
  | .go i =>
    match s.calls[i]? with
    | none => s
    | some (verb, pc) =>
      if pc = .start then
        { s with calls := s.calls.set i (verb, if s.funcs = [] then .bare else .bound (s.funcs.length - 1)) }
      else match pc.obj with
        | none => s
        | some o =>
          match s.funcs[o]? with
          | none => s
          | some (f, d) =>
            { s with funcs := s.funcs.set o (f, (respond md5 verb f d pc).1), calls := s.calls.set i (verb, (respond md5 verb f d pc).2) }

/-- A schedule. -/
def authTurns (md5 : Bytes → Bytes) (base user password : Bytes) (ts : List AuthTurn) : AuthShared :=
  ts.foldl (authTurn md5 base user password) {}

end Ouro
