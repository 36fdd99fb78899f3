import Verif.Model.Aac
import Verif.Model.Amf
import Verif.Model.Amf0
import Verif.Model.Amf0Shared
import Verif.Model.Amf3
import Verif.Model.Amf3Shared
import Verif.Model.AmfReg
import Verif.Model.Crc
import Verif.Model.Float64
import Verif.Model.Flv
import Verif.Model.Go
import Verif.Model.Gop
import Verif.Model.H264
import Verif.Model.Packet
import Verif.Model.Parser
import Verif.Model.Sips
import Verif.Model.SipsArgs
import Verif.Model.SipsBody
import Verif.Model.SipsMsg
import Verif.Model.SipsShare
import Verif.Model.SipsSlice
import Verif.Model.Str
import Verif.Model.Ts
import Verif.Model.TsBuf
import Verif.Model.TsHeld
import Verif.Model.TsMixer
import Verif.Spec.Amf0
import Verif.Spec.Amf0Peer
import Verif.Spec.Amf3
import Verif.Spec.Amf3Peer
import Verif.Spec.AmfAccept
import Verif.Spec.AmfEarly
import Verif.Spec.AmfEncode
import Verif.Spec.AmfHistory
import Verif.Spec.AmfIO
import Verif.Spec.AmfReject
import Verif.Spec.AmfReuse
import Verif.Spec.AmfShared
import Verif.Spec.AmfSize
import Verif.Spec.Crc
import Verif.Spec.Float64
import Verif.Spec.Flv
import Verif.Spec.FlvCopy
import Verif.Spec.FlvHistory
import Verif.Spec.FlvSegments
import Verif.Spec.Gop
import Verif.Spec.GopHold
import Verif.Spec.Hold
import Verif.Spec.Parser
import Verif.Spec.ParserHistory
import Verif.Spec.Relay
import Verif.Spec.RelayTs
import Verif.Spec.Repeat
import Verif.Spec.Sips
import Verif.Spec.SipsAccept
import Verif.Spec.SipsAddr
import Verif.Spec.SipsArgs
import Verif.Spec.SipsConn
import Verif.Spec.SipsDialog
import Verif.Spec.SipsDigest
import Verif.Spec.SipsLife
import Verif.Spec.SipsOrder
import Verif.Spec.SipsPeer
import Verif.Spec.Ts
import Verif.Spec.TsClock
import Verif.Spec.TsHeld
import Verif.Spec.TsHelpers
import Verif.Spec.TsHistory
import Verif.Spec.TsMixerHistory
import Verif.Spec.TsSegments
import Verif.Spec.TsShare
import Verif.Spec.TsStream
import Verif.Spec.TsTune
import Verif.Spec.TsVersion
import Verif.Spec.Utf8
import Verif.Lemmas.Amf
import Verif.Lemmas.Amf0
import Verif.Lemmas.Amf0Peer
import Verif.Lemmas.Amf0Safe
import Verif.Lemmas.Amf3
import Verif.Lemmas.Amf3Codec
import Verif.Lemmas.Amf3Peer
import Verif.Lemmas.Amf3Refs
import Verif.Lemmas.AmfAccept
import Verif.Lemmas.AmfAccept0
import Verif.Lemmas.AmfBatch
import Verif.Lemmas.AmfCross
import Verif.Lemmas.AmfEarly
import Verif.Lemmas.AmfEncode
import Verif.Lemmas.AmfFrame
import Verif.Lemmas.AmfHold
import Verif.Lemmas.AmfIO
import Verif.Lemmas.AmfReject
import Verif.Lemmas.AmfReuse
import Verif.Lemmas.AmfShared
import Verif.Lemmas.AmfSize
import Verif.Lemmas.AmfTakes
import Verif.Lemmas.AmfTakes0
import Verif.Lemmas.Crc
import Verif.Lemmas.Float64
import Verif.Lemmas.Float64Round
import Verif.Lemmas.Flv
import Verif.Lemmas.FlvMixer
import Verif.Lemmas.Gop
import Verif.Lemmas.H264
import Verif.Lemmas.Parser
import Verif.Lemmas.Relay
import Verif.Lemmas.RelayTs
import Verif.Lemmas.SipsAccept
import Verif.Lemmas.SipsAddr
import Verif.Lemmas.SipsArgs
import Verif.Lemmas.SipsConn
import Verif.Lemmas.SipsCrlf
import Verif.Lemmas.SipsDigest
import Verif.Lemmas.SipsMsg
import Verif.Lemmas.SipsPanic
import Verif.Lemmas.SipsParts
import Verif.Lemmas.SipsPeer
import Verif.Lemmas.SipsRd
import Verif.Lemmas.SipsSafe
import Verif.Lemmas.SipsText
import Verif.Lemmas.SipsTrip
import Verif.Lemmas.SipsUser
import Verif.Lemmas.SipsWhole
import Verif.Lemmas.Str
import Verif.Lemmas.Ts
import Verif.Lemmas.TsMixer
import Verif.Lemmas.TsMux
import Verif.Lemmas.TsOut
import Verif.Lemmas.TsSession
import Verif.Lemmas.TsTable
import Verif.Lemmas.Utf8
import Verif.Props.Amf0
import Verif.Props.Amf0Peer
import Verif.Props.Amf0Refs
import Verif.Props.Amf3
import Verif.Props.Amf3Peer
import Verif.Props.Amf3Refs
import Verif.Props.AmfAccept
import Verif.Props.AmfCross
import Verif.Props.AmfDates
import Verif.Props.AmfEarly
import Verif.Props.AmfEncode
import Verif.Props.AmfIO
import Verif.Props.AmfMeta
import Verif.Props.AmfNumber
import Verif.Props.AmfReg
import Verif.Props.AmfReject
import Verif.Props.AmfReuse
import Verif.Props.AmfShared
import Verif.Props.AmfSize
import Verif.Props.Flv
import Verif.Props.FlvCopy
import Verif.Props.FlvLong
import Verif.Props.FlvSegments
import Verif.Props.FlvShare
import Verif.Props.Gop
import Verif.Props.GopHold
import Verif.Props.Hold
import Verif.Props.Parser
import Verif.Props.Relay
import Verif.Props.RelayTs
import Verif.Props.Repeat
import Verif.Props.Sips
import Verif.Props.SipsAccept
import Verif.Props.SipsAddr
import Verif.Props.SipsArgs
import Verif.Props.SipsBody
import Verif.Props.SipsConn
import Verif.Props.SipsDialog
import Verif.Props.SipsForward
import Verif.Props.SipsHeader
import Verif.Props.SipsInject
import Verif.Props.SipsLength
import Verif.Props.SipsLife
import Verif.Props.SipsLine
import Verif.Props.SipsMap
import Verif.Props.SipsMore
import Verif.Props.SipsMsg
import Verif.Props.SipsOrder
import Verif.Props.SipsPanic
import Verif.Props.SipsParts
import Verif.Props.SipsReject
import Verif.Props.SipsSend
import Verif.Props.SipsShare
import Verif.Props.SipsSlice
import Verif.Props.SipsUri
import Verif.Props.Ts
import Verif.Props.TsAgain
import Verif.Props.TsClock
import Verif.Props.TsHeld
import Verif.Props.TsHelpers
import Verif.Props.TsMixer
import Verif.Props.TsMixerCc
import Verif.Props.TsMixerCcOn
import Verif.Props.TsSegments
import Verif.Props.TsSeq
import Verif.Props.TsShare
import Verif.Props.TsStream
import Verif.Props.TsTables
import Verif.Props.TsTune
import Verif.Props.TsVersion
import Verif.Tests.Amf
import Verif.Tests.Flv
import Verif.Tests.Gop
import Verif.Tests.Parser
import Verif.Tests.Sips
import Verif.Tests.Ts
import Verif.Tests.TsMixer
