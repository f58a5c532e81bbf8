import Verif.Go.Strings
/-!
# Go standard library functions on URIs and paths

`net/url` (`Parse`, `URL.String`), `net.SplitHostPort`, `path.Join` and `filepath.Base` (on Unix) as the code uses them, written
after the sources of Go 1.20. An error is `none`: the code never looks at which one it is. Nothing here models code of /repo.
-/
namespace Ouro

/-- The text before and after the last `c`, if there is one. -/
def cutLast (c : UInt8) : Bytes → Option (Bytes × Bytes)
  | [] => none
  | x :: xs =>
    match cutLast c xs with
    | some (a, b) => some (x :: a, b)
    | none => if x = c then some ([], xs) else none

/-- `stringContainsCTLByte`, for one byte. -/
def isCtl (c : UInt8) : Bool := c < 32 || c = 127

def isLetter (c : UInt8) : Bool := (97 ≤ c && c ≤ 122) || (65 ≤ c && c ≤ 90)

def isAlnum (c : UInt8) : Bool := isLetter c || isDigit c

/-- The parts of a URI `net/url` treats differently. -/
inductive UrlMode | path | user | host | zone | fragment
  deriving DecidableEq, Repr

/-- `shouldEscape` -/
def shouldEscape (m : UrlMode) (c : UInt8) : Bool :=
  if isAlnum c then false
  else if (m = .host ∨ m = .zone) ∧ c ∈ b!"!$&'()*+,;=:[]<>\"" then false
  else if c ∈ b!"-_.~" then false
  else if c ∈ b!"$&+,/:;=?@" then
    match m with
    | .path => c = 63
    | .user => c ∈ b!"@/?:"
    | .host => true
    | .zone => true
    | .fragment => false
  else if m = .fragment ∧ c ∈ b!"!()*" then false
  else true

/-- A digit of `"0123456789ABCDEF"`. -/
def upperHex (n : Nat) : UInt8 := UInt8.ofNat (if n < 10 then 48 + n else 55 + n)

/-- `escape`, for one byte. (A space becomes `+` only in query components.) -/
def escape1 (m : UrlMode) (c : UInt8) : Bytes :=
  if shouldEscape m c then [37, upperHex (c.toNat / 16), upperHex (c.toNat % 16)] else [c]

/-- `escape` -/
def urlEscape (m : UrlMode) (s : Bytes) : Bytes := s.flatMap (escape1 m)

/-- Whether `unescape` accepts the escape `%ab`. -/
def escapeOk (m : UrlMode) (a b : UInt8) (x y : Nat) : Bool :=
  match m with
  | .host => 8 ≤ x || (a = 50 && b = 53)
  | .zone => (a = 50 && b = 53) || x * 16 + y = 32 || !shouldEscape .host (UInt8.ofNat (x * 16 + y))
  | _ => true

/-- Whether `unescape` accepts the byte `c`, not a `%`. -/
def plainOk (m : UrlMode) (c : UInt8) : Bool :=
  match m with
  | .host => !(c < 128 && shouldEscape .host c)
  | .zone => !(c < 128 && shouldEscape .zone c)
  | _ => true

/-- `unescape` -/
def urlUnescape (m : UrlMode) : Bytes → Option Bytes
  | [] => some []
  | c :: rest =>
    if c = 37 then
      match rest with
      | a :: b :: t =>
        match hexVal a, hexVal b with
        | some x, some y =>
          if escapeOk m a b x y then (urlUnescape m t).map (UInt8.ofNat (x * 16 + y) :: ·) else none
        | _, _ => none
      | _ => none
    else if plainOk m c then (urlUnescape m rest).map (c :: ·)
    else none

/-- `validEncoded` -/
def validEncoded (m : UrlMode) (s : Bytes) : Bool :=
  s.all fun c => c ∈ b!"!$&'()*+,;=:@[]%" || !shouldEscape m c

/-- `url.Userinfo`: the user name and the password, if it is set. -/
abbrev Userinfo := Bytes × Option Bytes

/-- `url.URL` -/
structure Url where
  scheme : Bytes := []
  opaq : Bytes := []
  user : Option Userinfo := none
  host : Bytes := []
  path : Bytes := []
  rawPath : Bytes := []
  omitHost : Bool := false
  forceQuery : Bool := false
  rawQuery : Bytes := []
  fragment : Bytes := []
  rawFragment : Bytes := []
  deriving DecidableEq, Repr

/-- `getScheme` after a first letter; the scheme read so far is `acc`, reversed. `none`: there is no scheme. -/
def schemeLoop (acc : Bytes) : Bytes → Option (Bytes × Bytes)
  | [] => none
  | c :: rest =>
    if isAlnum c ∨ c ∈ b!"+-." then schemeLoop (c :: acc) rest
    else if c = 58 then some (acc.reverse, rest)
    else none

/-- `getScheme`: the scheme (empty if there is none) and the rest. -/
def getScheme (s : Bytes) : Option (Bytes × Bytes) :=
  match s with
  | [] => some ([], s)
  | c :: rest =>
    if isLetter c then
      match schemeLoop [c] rest with
      | some r => some r
      | none => some ([], s)
    else if c = 58 then none
    else some ([], s)

/-- `validUserinfo` -/
def validUserinfo (s : Bytes) : Bool := s.all fun c => isAlnum c || c ∈ b!"-._:~!$&'()*+,;=%@"

/-- `validOptionalPort` -/
def validOptionalPort : Bytes → Bool
  | [] => true
  | c :: rest => c = 58 && rest.all isDigit

/-- `strings.Index(s, "%25")`: the text before the first one, and the text from there on. -/
def cutZone : Bytes → Option (Bytes × Bytes)
  | [] => none
  | c :: rest =>
    if [37, 50, 53] <+: c :: rest then some ([], c :: rest)
    else match cutZone rest with
      | none => none
      | some (a, b) => some (c :: a, b)

/-- `parseHost` -/
def parseHost (host : Bytes) : Option Bytes :=
  if host.head? = some 91 then
    match cutLast 93 host with
    | none => none
    | some (inner, port) =>
      if validOptionalPort port then
        match cutZone inner with
        | some (a, z) =>
          match urlUnescape .host a, urlUnescape .zone z, urlUnescape .host (93 :: port) with
          | some x, some y, some p => some (x ++ y ++ p)
          | _, _, _ => none
        | none => urlUnescape .host host
      else none
  else
    match cutLast 58 host with
    | some (_, port) => if port.all isDigit then urlUnescape .host host else none
    | none => urlUnescape .host host

/-- `parseAuthority` -/
def parseAuthority (a : Bytes) : Option (Option Userinfo × Bytes) :=
  match cutLast 64 a with
  | none => (parseHost a).map fun h => (none, h)
  | some (ui, h) =>
    match parseHost h with
    | none => none
    | some host =>
      if validUserinfo ui then
        match cut 58 ui with
        | none => (urlUnescape .user ui).map fun n => (some (n, none), host)
        | some (n, p) =>
          match urlUnescape .user n, urlUnescape .user p with
          | some n, some p => some (some (n, some p), host)
          | _, _ => none
      else none

/-- `URL.setPath` -/
def Url.setPath (u : Url) (p : Bytes) : Option Url :=
  (urlUnescape .path p).map fun d => { u with path := d, rawPath := if p = urlEscape .path d then [] else p }

/-- `URL.setFragment` -/
def Url.setFragment (u : Url) (f : Bytes) : Option Url :=
  (urlUnescape .fragment f).map fun d =>
    { u with fragment := d, rawFragment := if f = urlEscape .fragment d then [] else f }

/-- `strings.Cut(s, c)`, without the third result. -/
def cutAt (c : UInt8) (s : Bytes) : Bytes × Bytes := (cut c s).getD (s, [])

/-- `parse` after the scheme and the query: the rest of the text. -/
def parseRest (u : Url) (rest : Bytes) : Option Url :=
  if rest.head? ≠ some 47 ∧ u.scheme ≠ [] then some { u with opaq := rest }
  else if rest.head? ≠ some 47 ∧ 58 ∈ (cutAt 47 rest).1 then none
  else if (u.scheme ≠ [] ∨ ¬ [47, 47, 47] <+: rest) ∧ [47, 47] <+: rest then
    match parseAuthority ((rest.drop 2).takeWhile (· ≠ 47)) with
    | none => none
    | some (user, host) => { u with user := user, host := host }.setPath ((rest.drop 2).dropWhile (· ≠ 47))
  else if u.scheme ≠ [] then { u with omitHost := true }.setPath rest
  else u.setPath rest

/-- `parse(rawURL, false)` -/
def parseUrl0 (s : Bytes) : Option Url :=
  if s.any isCtl then none
  else if s = [42] then some { path := [42] }
  else match getScheme s with
    | none => none
    | some (scheme, rest) =>
      if rest.getLast? = some 63 ∧ rest.count 63 = 1 then
        parseRest { scheme := toLower scheme, forceQuery := true } rest.dropLast
      else
        parseRest { scheme := toLower scheme, rawQuery := (cutAt 63 rest).2 } (cutAt 63 rest).1

/-- `url.Parse` -/
def parseUrl (s : Bytes) : Option Url :=
  match parseUrl0 (cutAt 35 s).1 with
  | none => none
  | some u => if (cutAt 35 s).2 = [] then some u else u.setFragment (cutAt 35 s).2

/-- `Userinfo.String` -/
def userText (u : Userinfo) : Bytes :=
  urlEscape .user u.1 ++ match u.2 with | none => [] | some p => 58 :: urlEscape .user p

/-- `URL.EscapedPath` -/
def Url.escapedPath (u : Url) : Bytes :=
  if u.rawPath ≠ [] ∧ validEncoded .path u.rawPath ∧ urlUnescape .path u.rawPath = some u.path then u.rawPath
  else if u.path = [42] then [42]
  else urlEscape .path u.path

/-- `URL.EscapedFragment` -/
def Url.escapedFragment (u : Url) : Bytes :=
  if u.rawFragment ≠ [] ∧ validEncoded .fragment u.rawFragment ∧ urlUnescape .fragment u.rawFragment = some u.fragment then
    u.rawFragment
  else urlEscape .fragment u.fragment

/-- `URL.String`: from the scheme up to the path. -/
def Url.front (u : Url) : Bytes :=
  (if u.scheme ≠ [] then u.scheme ++ [58] else []) ++
    if (u.scheme ≠ [] ∨ u.host ≠ [] ∨ u.user.isSome) ∧ ¬ (u.omitHost ∧ u.host = [] ∧ u.user = none) then
      (if u.host ≠ [] ∨ u.path ≠ [] ∨ u.user.isSome then b!"//" else []) ++
        (match u.user with | none => [] | some ui => userText ui ++ [64]) ++ urlEscape .host u.host
    else []

/-- `URL.String`: what comes after the authority. -/
def Url.pathText (u : Url) : Bytes :=
  (if u.escapedPath ≠ [] ∧ u.escapedPath.head? ≠ some 47 ∧ u.host ≠ [] then [47] else []) ++
    (if u.front = [] ∧ ¬ (u.escapedPath ≠ [] ∧ u.escapedPath.head? ≠ some 47 ∧ u.host ≠ []) ∧
        58 ∈ (cutAt 47 u.escapedPath).1 then b!"./" else []) ++ u.escapedPath

/-- `URL.String`: the query and the fragment. -/
def Url.back (u : Url) : Bytes :=
  (if u.forceQuery ∨ u.rawQuery ≠ [] then 63 :: u.rawQuery else []) ++
    if u.fragment ≠ [] then 35 :: u.escapedFragment else []

/-- `URL.String` -/
def Url.text (u : Url) : Bytes :=
  (if u.opaq ≠ [] then (if u.scheme ≠ [] then u.scheme ++ [58] else []) ++ u.opaq else u.front ++ u.pathText) ++ u.back

/-- Whether `net.SplitHostPort` succeeds. -/
def splitHostPortOk (s : Bytes) : Bool :=
  match cutLast 58 s with
  | none => false
  | some (host, port) =>
    if s.head? = some 91 then
      match cut 93 s with
      | none => false
      -- `host` ends with the first `]`, there is no other `[`, and no `]` in the port
      | some (inner, _) => host = inner ++ [93] && !(s.drop 1).contains 91 && !port.contains 93
    else !host.contains 58 && !s.contains 91 && !s.contains 93

/-- The components of `path.Clean`, the ones read so far in `acc`, last first. -/
def cleanLoop (rooted : Bool) (acc : List Bytes) : List Bytes → List Bytes
  | [] => acc.reverse
  | x :: rest =>
    if x = [] ∨ x = b!"." then cleanLoop rooted acc rest
    else if x = b!".." then
      match acc with
      | [] => cleanLoop rooted (if rooted then [] else [x]) rest
      | y :: acc' => cleanLoop rooted (if y = b!".." then x :: acc else acc') rest
    else cleanLoop rooted (x :: acc) rest

/-- `path.Clean`, written on the components between slashes. -/
def pathClean (p : Bytes) : Bytes :=
  if p.head? = some 47 then 47 :: List.intercalate [47] (cleanLoop true [] (split 47 p))
  else if cleanLoop false [] (split 47 p) = [] then b!"."
  else List.intercalate [47] (cleanLoop false [] (split 47 p))

/-- `path.Join(a, b)` -/
def pathJoin (a b : Bytes) : Bytes :=
  if a = [] then (if b = [] then [] else pathClean b) else pathClean (a ++ 47 :: b)

/-- `filepath.Base` (on Unix). -/
def pathBase (p : Bytes) : Bytes :=
  if p = [] then b!"."
  else
    let s := (p.reverse.dropWhile (· = 47)).takeWhile (· ≠ 47)
    if s = [] then b!"/" else s.reverse

end Ouro
