import Verif.Go.Basic
import Verif.Spec.Bits
import Verif.Model.Bits
import Verif.Lemmas.Bits
import Verif.Lemmas.Golomb
import Verif.Model.BitsApi
import Verif.Props.Bits
import Verif.Spec.AnnexB
import Verif.Model.AnnexB
import Verif.Lemmas.AnnexB
import Verif.Props.AnnexB
import Verif.Spec.Rtp6184
import Verif.Model.Nal
import Verif.Lemmas.Nal
import Verif.Lemmas.Nal2
import Verif.Props.Nal
import Verif.Spec.Rtp3550
import Verif.Model.Rtp
import Verif.Lemmas.Rtp
import Verif.Props.Rtp
import Verif.Spec.ParamSets
import Verif.Model.ParamSets
import Verif.Lemmas.ParamSets
import Verif.Lemmas.Sps
import Verif.Props.ParamSets
import Verif.Props.Sps
import Verif.Lemmas.Pps
import Verif.Go.Strings
import Verif.Lemmas.Strings
import Verif.Props.Pps
import Verif.Model.Sdp
import Verif.Spec.Sdp
import Verif.Lemmas.Sdp
import Verif.Props.Sdp
import Verif.Model.Hls
import Verif.Spec.Hls
import Verif.Lemmas.Hls
import Verif.Props.Hls
import Verif.Model.Digest
import Verif.Spec.Digest
import Verif.Lemmas.Digest
import Verif.Props.Digest
import Verif.Model.Transport
import Verif.Spec.Transport
import Verif.Lemmas.Transport
import Verif.Props.Transport
import Verif.Model.Message
import Verif.Lemmas.Bufio
import Verif.Spec.Message
import Verif.Lemmas.Message
import Verif.Props.Message
import Verif.Model.Receive
import Verif.Spec.Receive
import Verif.Lemmas.Receive
import Verif.Props.Receive
import Verif.Model.Session
import Verif.Spec.Session
import Verif.Lemmas.Session
import Verif.Lemmas.SessionInv
import Verif.Props.Session
import Verif.Lemmas.Setup
import Verif.Lemmas.SetupAll
import Verif.Props.Setup
import Verif.Props.Concurrent
import Verif.Props.Udp
import Verif.Props.Http
import Verif.Spec.Depacketize
import Verif.Model.Main
import Verif.Spec.Main
import Verif.Lemmas.Main
import Verif.Lemmas.MainInv
import Verif.Lemmas.MainTrace
import Verif.Props.Main
import Verif.Props.Commands
import Verif.Props.Listen
import Verif.Props.Malformed
import Verif.Props.Repack
import Verif.Spec.Authorize
import Verif.Lemmas.Authorize
import Verif.Props.Authorized
import Verif.Spec.Crash
import Verif.Props.Crash
import Verif.Props.CrashClient
import Verif.Props.EndToEnd
import Verif.Props.Retained
import Verif.Spec.Dialogue
import Verif.Lemmas.Dialogue
import Verif.Lemmas.Dialogue2
import Verif.Props.Dialogue
import Verif.Spec.TransportField
import Verif.Lemmas.TransportField
import Verif.Props.TransportField
import Verif.Go.BufioChunks
import Verif.Model.Chunks
import Verif.Spec.Chunks
import Verif.Lemmas.Chunks
import Verif.Lemmas.Chunks2
import Verif.Props.Chunks
import Verif.Model.Process
import Verif.Spec.Process
import Verif.Lemmas.Process
import Verif.Props.Process
import Verif.Props.Follow
import Verif.Spec.NalUnits
import Verif.Props.NalUnits
import Verif.Spec.Sending
import Verif.Props.Sending
import Verif.Props.Dial
import Verif.Props.Media
import Verif.Props.Handshake
import Verif.Props.Resolve
import Verif.Props.Secret
import Verif.Props.Strongest
import Verif.Props.Alloc
import Verif.Props.Sprop
import Verif.Props.CrashExact
import Verif.Spec.Loss
import Verif.Props.Loss
import Verif.Props.CSeq
import Verif.Spec.Deadlock
import Verif.Props.Deadlock
import Verif.Spec.Playlist
import Verif.Props.Playlist
import Verif.Spec.Streams
import Verif.Props.Streams
import Verif.Spec.Compound
import Verif.Props.Compound
import Verif.Spec.Wire
import Verif.Lemmas.Wire
import Verif.Lemmas.Clean
import Verif.Lemmas.CleanSess
import Verif.Props.Wire
import Verif.Lemmas.Replay
import Verif.Props.Blind
import Verif.Props.Memory
import Verif.Props.FeedSet
import Verif.Props.BitsExact
import Verif.Props.Reopen
import Verif.Props.Slashes
import Verif.Spec.Unusable
import Verif.Props.Unusable
import Verif.Spec.Challenge
import Verif.Props.Challenge
import Verif.Spec.SdpExact
import Verif.Props.SdpExact
import Verif.Spec.Padded
import Verif.Props.Padded
import Verif.Props.BeforeOpen
import Verif.Props.StapB
import Verif.Spec.Channels
import Verif.Props.Channels
import Verif.Props.Determined
import Verif.Spec.Undisturbed
import Verif.Props.Undisturbed
import Verif.Model.Clock
import Verif.Spec.Clock
import Verif.Props.Clock
import Verif.Props.Invents
import Verif.Spec.Volume
import Verif.Props.Volume
import Verif.Model.Cost
import Verif.Lemmas.Cost
import Verif.Props.Cost
import Verif.Props.Amount
import Verif.Spec.Firsts
import Verif.Lemmas.Firsts
import Verif.Lemmas.ClientRun
import Verif.Props.Firsts
import Verif.Spec.Lib
import Verif.Props.Lib
import Verif.Props.LibUrl
import Verif.Spec.Over
import Verif.Lemmas.Over
import Verif.Props.Over
import Verif.Lemmas.Early
import Verif.Model.Log
import Verif.Spec.Log
import Verif.Lemmas.Log
import Verif.Props.Log
import Verif.Lemmas.LineFeed
import Verif.Spec.Output
import Verif.Lemmas.Output
import Verif.Props.Output
import Verif.Spec.Ports
import Verif.Props.Ports
import Verif.Spec.Spoilt
import Verif.Props.Spoilt
import Verif.Model.ConcurrentSetup
import Verif.Spec.ConcurrentSetup
import Verif.Props.ConcurrentSetup
import Verif.Props.Demux
import Verif.Model.SessionWords
import Verif.Spec.SessionWords
import Verif.Props.SessionWords
import Verif.Props.Bounds
import Verif.Go.BufioArray
import Verif.Model.Body
import Verif.Lemmas.BufioArray
import Verif.Spec.Body
import Verif.Props.Body
import Verif.Spec.Deadlines
import Verif.Props.Deadlines
import Verif.Spec.Gist
import Verif.Props.Gist
import Verif.Spec.Ignored
import Verif.Props.Ignored
import Verif.Spec.Timestamps
import Verif.Props.Timestamps
import Verif.Spec.Credentials
import Verif.Props.Credentials
import Verif.Model.Resetup
import Verif.Spec.Resetup
import Verif.Props.Resetup
import Verif.Spec.Sections
import Verif.Props.Sections
import Verif.Spec.Join
import Verif.Props.Join
import Verif.Spec.SetOrder
import Verif.Props.SetOrder
import Verif.Model.TwoReaders
import Verif.Spec.TwoReaders
import Verif.Props.TwoReaders
import Verif.Lemmas.Order
import Verif.Spec.TransportOrder
import Verif.Props.TransportOrder
import Verif.Spec.AttrOrder
import Verif.Props.AttrOrder
import Verif.Spec.SetExchange
import Verif.Props.SetExchange
import Verif.Spec.Distance
import Verif.Props.Distance
import Verif.Props.DistanceExact
import Verif.Model.Program
import Verif.Spec.Program
import Verif.Props.Program
import Verif.Spec.Duplicate
import Verif.Props.Duplicate
import Verif.Spec.Surplus
import Verif.Props.Surplus
import Verif.Spec.NonceCount
import Verif.Props.NonceCount
import Verif.Model.Served
import Verif.Spec.Served
import Verif.Props.Served
import Verif.Props.Overlap
import Verif.Props.ServedEnds
import Verif.Spec.FollowUps
import Verif.Props.FollowUps
import Verif.Model.ConcurrentAuth
import Verif.Spec.ConcurrentAuth
import Verif.Props.ConcurrentAuth
import Verif.Props.KeptList
import Verif.Spec.Offers
import Verif.Props.Offers
import Verif.Spec.Overtaken
import Verif.Props.Overtaken
import Verif.Props.ConcurrentSame
import Verif.Props.SetupSame
import Verif.Props.Refusals
import Verif.Spec.Walk
import Verif.Props.MediaAny
import Verif.Props.OverExact
import Verif.Spec.Covered
import Verif.Props.KeptMany
import Verif.Props.DialAny
import Verif.Props.RtpHeader
import Verif.Props.ReadyAny
import Verif.Props.SpsFields
import Verif.Props.DigestSess
import Verif.Props.ConcurrentSess
import Verif.Props.PpsIff
import Verif.Props.VolumeBound
import Verif.Props.AllocBound
import Verif.Props.FuIff
import Verif.Spec.LineEnds
import Verif.Props.LineEnds
import Verif.Spec.Weave
import Verif.Props.Weave
import Verif.Props.SetupOrder
import Verif.Spec.SetupOrder
import Verif.Spec.HeaderOrder
import Verif.Props.HeaderOrder
import Verif.Props.ParamOrder
import Verif.Spec.LetterCase
import Verif.Props.LetterCase
