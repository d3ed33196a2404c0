import Verif.Basic
import Verif.Lemmas.Canonical
import Verif.Lemmas.Cbor
import Verif.Lemmas.Concurrent
import Verif.Lemmas.Device
import Verif.Lemmas.Forward
import Verif.Lemmas.Hoare
import Verif.Lemmas.Honest
import Verif.Lemmas.Life
import Verif.Lemmas.MfgClient
import Verif.Lemmas.MfgRun
import Verif.Lemmas.MfgServer
import Verif.Lemmas.NetClient
import Verif.Lemmas.Onboard
import Verif.Lemmas.OwnerServer
import Verif.Lemmas.Proc
import Verif.Lemmas.ReadBack
import Verif.Lemmas.Retry
import Verif.Lemmas.RvServer
import Verif.Lemmas.SiClient
import Verif.Lemmas.SiPipeline
import Verif.Lemmas.SiSound
import Verif.Lemmas.Store
import Verif.Lemmas.Talk
import Verif.Lemmas.TalkRun
import Verif.Lemmas.To0
import Verif.Lemmas.Utf8
import Verif.Lemmas.Voucher
import Verif.Lemmas.Wire
import Verif.Lemmas.WireCodec
import Verif.Lemmas.WireCredential
import Verif.Lemmas.WireMsg
import Verif.Lemmas.WireShort
import Verif.Model.Aio
import Verif.Model.AioRun
import Verif.Model.CApi
import Verif.Model.Cbor
import Verif.Model.Concurrent
import Verif.Model.Config
import Verif.Model.Credential
import Verif.Model.Crypto
import Verif.Model.Device
import Verif.Model.Disk
import Verif.Model.Errors
import Verif.Model.ErrorsMfg
import Verif.Model.ErrorsOwner
import Verif.Model.ErrorsRv
import Verif.Model.Fs
import Verif.Model.Http
import Verif.Model.Import
import Verif.Model.Messages
import Verif.Model.MfgClient
import Verif.Model.MfgServer
import Verif.Model.NetClient
import Verif.Model.OwnerServer
import Verif.Model.OwnerTool
import Verif.Model.PerDevice
import Verif.Model.Prog
import Verif.Model.PublicKey
import Verif.Model.Rendezvous
import Verif.Model.RvServer
import Verif.Model.ServiceInfo
import Verif.Model.Settings
import Verif.Model.SiApi
import Verif.Model.SiClient
import Verif.Model.Startup
import Verif.Model.StartupAddr
import Verif.Model.StartupApi
import Verif.Model.StartupMfg
import Verif.Model.StartupReport
import Verif.Model.StartupSi
import Verif.Model.StartupStore
import Verif.Model.Store
import Verif.Model.Text
import Verif.Model.To0
import Verif.Model.Types
import Verif.Model.Url
import Verif.Model.Voucher
import Verif.Model.Wire
import Verif.Props.Aio
import Verif.Props.AioDevice
import Verif.Props.AioExample
import Verif.Props.AioRun
import Verif.Props.CApi
import Verif.Props.Cbor
import Verif.Props.Concurrent
import Verif.Props.ConcurrentExample
import Verif.Props.ConcurrentMfg
import Verif.Props.ConcurrentOwner
import Verif.Props.ConcurrentRv
import Verif.Props.Config
import Verif.Props.Credential
import Verif.Props.Device
import Verif.Props.DeviceEnd
import Verif.Props.DeviceEntries
import Verif.Props.DeviceExample
import Verif.Props.DeviceSi
import Verif.Props.Disk
import Verif.Props.DiskResume
import Verif.Props.Errors
import Verif.Props.ErrorsExample
import Verif.Props.ErrorsMfg
import Verif.Props.ErrorsMfgExample
import Verif.Props.ErrorsOrder
import Verif.Props.ErrorsOrderExample
import Verif.Props.ErrorsOwner
import Verif.Props.ErrorsOwnerExample
import Verif.Props.ErrorsRv
import Verif.Props.ErrorsRvExample
import Verif.Props.Exclusive
import Verif.Props.ExclusiveExample
import Verif.Props.Http
import Verif.Props.Import
import Verif.Props.Life
import Verif.Props.LifeExample
import Verif.Props.LifeToy
import Verif.Props.MfgClient
import Verif.Props.MfgCrash
import Verif.Props.MfgExample
import Verif.Props.MfgKept
import Verif.Props.MfgRun
import Verif.Props.MfgRunExample
import Verif.Props.MfgServer
import Verif.Props.Onboard
import Verif.Props.OnboardExample
import Verif.Props.OnboardLimits
import Verif.Props.OnboardLimitsExample
import Verif.Props.OwnerEntries
import Verif.Props.OwnerExample
import Verif.Props.OwnerRenewal
import Verif.Props.OwnerRounds
import Verif.Props.OwnerServer
import Verif.Props.OwnerStore
import Verif.Props.OwnerTool
import Verif.Props.PerDevice
import Verif.Props.PerDeviceExample
import Verif.Props.PublicKey
import Verif.Props.PublicKeyExample
import Verif.Props.Query
import Verif.Props.QueryExample
import Verif.Props.Rendezvous
import Verif.Props.Retry
import Verif.Props.RetryExample
import Verif.Props.RvDatabase
import Verif.Props.RvExample
import Verif.Props.RvReplace
import Verif.Props.RvServer
import Verif.Props.Settings
import Verif.Props.SettingsExample
import Verif.Props.SiApi
import Verif.Props.SiClient
import Verif.Props.SiCommands
import Verif.Props.SiFiles
import Verif.Props.SiHonest
import Verif.Props.SiPanics
import Verif.Props.SiPipeline
import Verif.Props.SiUser
import Verif.Props.Startup
import Verif.Props.StartupAddr
import Verif.Props.StartupAddrExample
import Verif.Props.StartupApi
import Verif.Props.StartupApiExample
import Verif.Props.StartupExample
import Verif.Props.StartupMfg
import Verif.Props.StartupMfgExample
import Verif.Props.StartupReport
import Verif.Props.StartupReportExample
import Verif.Props.StartupSi
import Verif.Props.StartupSiExample
import Verif.Props.StartupStore
import Verif.Props.StartupStoreExample
import Verif.Props.StartupTimes
import Verif.Props.StartupTimesExample
import Verif.Props.Store
import Verif.Props.Text
import Verif.Props.To0
import Verif.Props.To0Example
import Verif.Props.To0Report
import Verif.Props.To0ReportExample
import Verif.Props.Types
import Verif.Props.Url
import Verif.Props.UrlExample
import Verif.Props.Voucher
import Verif.Props.Wire
import Verif.Props.WireExample
import Verif.Props.WireLife
import Verif.Props.WireLifeExample
import Verif.Spec.Aio
import Verif.Spec.AioRun
import Verif.Spec.Canonical
import Verif.Spec.Cbor
import Verif.Spec.Concurrent
import Verif.Spec.Config
import Verif.Spec.Device
import Verif.Spec.Disk
import Verif.Spec.History
import Verif.Spec.Import
import Verif.Spec.Life
import Verif.Spec.MfgClient
import Verif.Spec.MfgRun
import Verif.Spec.MfgServer
import Verif.Spec.Onboard
import Verif.Spec.OwnerServer
import Verif.Spec.Protocol
import Verif.Spec.PublicKey
import Verif.Spec.Retry
import Verif.Spec.RvServer
import Verif.Spec.Settings
import Verif.Spec.Store
import Verif.Spec.Talk
import Verif.Spec.To0
import Verif.Spec.Toy
import Verif.Spec.Url
import Verif.Spec.Voucher
import Verif.Spec.Wire
import Verif.Spec.WireLife
