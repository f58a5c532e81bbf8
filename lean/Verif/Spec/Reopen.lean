import Verif.Spec.Authorize
import Verif.Spec.Commands
import Verif.Go.Strings
/-! # Opening a session again, stated on the wire -/
namespace Ouro.Spec

/-- The first request of a new session, for this address and with this sequence number. -/
def firstRequest (uri : Bytes) (cseq : Int) : Bytes :=
  b!"OPTIONS " ++ uri ++ b!" RTSP/1.0\r\nCSeq: " ++ itoa cseq ++ b!"\r\nUser-Agent: Ouro/1.0\r\nContent-Length: 0\r\n\r\n"

end Ouro.Spec
