import Verif.Props.Pin
import Verif.Props.Apdu
import Verif.Props.Key
import Verif.Props.Oath
import Verif.Props.OathMore
import Verif.Props.Kbd
import Verif.Props.Ndef
import Verif.Props.Admin
import Verif.Props.PivEx2
import Verif.Props.PgpEx
import Verif.Props.Device
import Verif.Props.HidEx
import Verif.Props.HidWait
import Verif.Props.NfcTurn
import Verif.Props.CcidEx
import Verif.Props.NfcEx
import Verif.Props.WebUsbEx
import Verif.Props.CtapPin
import Verif.Props.CtapPinMore
import Verif.Props.CtapToken
import Verif.Props.CtapTokenMore
import Verif.Props.CtapAssert
import Verif.Props.CtapNext
import Verif.Props.CtapReset
import Verif.Props.CtapFlaws
import Verif.Props.CtapHandle
import Verif.Props.CtapStore
import Verif.Lemmas.CtapKept
import Verif.Lemmas.CtapLive
import Verif.Lemmas.CtapSlots
import Verif.Spec.CtapLife
import Verif.Props.CtapLife
import Verif.Props.CtapLifeEx
import Verif.Spec.CtapExclude
import Verif.Props.CtapExclude
import Verif.Props.CtapParse
import Verif.Model.Usb
import Verif.Spec.Usb
import Verif.Lemmas.UsbDesc
import Verif.Lemmas.UsbXfer
import Verif.Props.Usb
import Verif.Props.UsbSafe
import Verif.Props.UsbCmd
import Verif.Props.UsbState
import Verif.Props.UsbEx
import Verif.Spec.CtapListing
import Verif.Props.CtapListing
import Verif.Spec.Cbor
import Verif.Model.CtapEnc
import Verif.Lemmas.CtapEnc
import Verif.Spec.CtapResp
import Verif.Props.CtapResp
import Verif.Lemmas.CtapWide
import Verif.Lemmas.CtapWideParse
import Verif.Props.CtapWire
import Verif.Props.PgpSecrets
import Verif.Base.Shift
import Verif.Model.Card
import Verif.Spec.Card
import Verif.Lemmas.CardTrace
import Verif.Lemmas.CardRuns
import Verif.Lemmas.CardAdmin
import Verif.Lemmas.CardStep
import Verif.Lemmas.CardComp
import Verif.Lemmas.CardSeen
import Verif.Lemmas.CardHist
import Verif.Spec.CardUse
import Verif.Lemmas.CardSince
import Verif.Props.Card
import Verif.Props.CardUse
import Verif.Props.CardAdm
import Verif.Props.CardEx
import Verif.Spec.CardReset
import Verif.Props.CardReset
import Verif.Props.CardResetEx
import Verif.Base.Moves
import Verif.Spec.PgpData
import Verif.Lemmas.PgpData
import Verif.Lemmas.PgpObj
import Verif.Lemmas.PgpGet
import Verif.Lemmas.PgpWhole
import Verif.Props.PgpData
import Verif.Base.Keeps
import Verif.Spec.PgpCert
import Verif.Lemmas.PgpOcc
import Verif.Lemmas.PgpCert
import Verif.Lemmas.PgpMeant
import Verif.Props.PgpCert
import Verif.Spec.PivKey
import Verif.Lemmas.PivTpl
import Verif.Lemmas.PivKey
import Verif.Lemmas.PivGen
import Verif.Lemmas.PivUse
import Verif.Props.PivKey
import Verif.Props.PivKeyEx
import Verif.Spec.OathCode
import Verif.Lemmas.OathCode
import Verif.Lemmas.OathCodeP
import Verif.Props.OathCode
import Verif.Props.OathCodeEx
import Verif.Model.Fs
import Verif.Spec.Fs
import Verif.Lemmas.Fs
import Verif.Props.Fs
import Verif.Props.FsEx
import Verif.Props.PivSecret
import Verif.Props.PivSecretEx
import Verif.Props.PgpSecret
import Verif.Props.PgpSecretEx
import Verif.Spec.CtapHmac
import Verif.Lemmas.CtapHmac
import Verif.Lemmas.CtapBlobKey
import Verif.Props.CtapU2f
import Verif.Props.CtapU2fEx
import Verif.Props.CtapHmac
import Verif.Props.CtapHmacEx
import Verif.Spec.AdminMach
import Verif.Lemmas.AdminMach
import Verif.Props.AdminMach
import Verif.Spec.OathAll
import Verif.Lemmas.OathGather
import Verif.Props.OathGather
import Verif.Spec.CtapPinMach
import Verif.Lemmas.CtapPinMach
import Verif.Lemmas.CtapCpSize
import Verif.Props.CtapPinMach
import Verif.Spec.CtapReg
import Verif.Lemmas.CtapReg
import Verif.Props.CtapReg
import Verif.Spec.CtapLogin
import Verif.Spec.CtapManage
import Verif.Lemmas.CtapManage
import Verif.Props.CtapManage
import Verif.Spec.CtapBlobMach
import Verif.Lemmas.CtapBlobMach
import Verif.Props.CtapBlobMach
import Verif.Spec.Touch
import Verif.Lemmas.Touch
import Verif.Props.Touch
import Verif.Spec.OathTable
import Verif.Lemmas.OathTable
import Verif.Props.OathTable
import Verif.Spec.NdefTag
import Verif.Props.NdefTag
import Verif.Lemmas.CtapLogin
import Verif.Lemmas.CtapOwn
import Verif.Props.CtapLogin
import Verif.Spec.PivHand
import Verif.Props.PivHand
import Verif.Model.U2fMsg
import Verif.Spec.U2fMsg
import Verif.Props.U2fMsg
import Verif.Model.Led
import Verif.Spec.Led
import Verif.Props.Led
import Verif.Model.Fm
import Verif.Spec.Fm
import Verif.Props.Fm
import Verif.Model.CcidPipe
import Verif.Spec.CcidPipe
import Verif.Props.CcidPipe
import Verif.Model.HidPipe
import Verif.Props.HidPipe
import Verif.Model.FlashUse
import Verif.Props.FlashUse
import Verif.Model.FmSpi
import Verif.Spec.FmSpi
import Verif.Props.FmSpi
import Verif.Model.FmNt
import Verif.Spec.FmNt
import Verif.Props.FmNt
