import Verif.Go.Url
import Verif.Model.Hls
/-! # Model of `Dial` (net/rtsp/connection.go) and `NewPlaylist` (net/hls/playlist.go): what they make of a URI

Resolving the name and connecting are not modelled: `Dialed.addr` is the text given to `net.ResolveTCPAddr`. -/
namespace Ouro

/-- What `Dial` takes from the URI: the address it resolves and connects to, `BaseURI`, and the credentials, as
session.go:61-65 reads them from `URL.User` (no password counts as an empty one). -/
structure Dialed where
  addr : Bytes
  base : Bytes
  user : Option (Bytes × Bytes)
  deriving DecidableEq, Repr

/-- connection.go:58-65: the host, with the default port if `net.SplitHostPort` refuses it. -/
def dialAddr (host : Bytes) : Bytes := if splitHostPortOk host then host else host ++ b!":554"

/-- connection.go:57-88 `Dial`, up to the network. -/
def dial (uri : Bytes) : Option Dialed :=
  match parseUrl uri with
  | none => none
  | some u =>
    some { addr := dialAddr u.host, base := Url.text { u with host := dialAddr u.host, user := none },
           user := u.user.map fun x => (x.1, x.2.getD []) }

/-- playlist.go:43-51: the address of the media file. -/
def playlistURI (uri name : Bytes) : Option Bytes :=
  match parseUrl uri with
  | none => none
  | some u => some (Url.text { u with path := pathJoin u.path (pathBase name) })

/-- playlist.go:42-58 `NewPlaylist`. -/
def newPlaylistFor {D : Type} (zero : D) (uri name : Bytes) (nseg : Nat) : Option (Playlist D) :=
  (playlistURI uri name).map fun u => newPlaylist zero u nseg

end Ouro
