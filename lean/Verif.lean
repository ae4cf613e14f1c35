import Verif.Props.Framing
import Verif.Props.Hello
import Verif.Props.PsQueue
import Verif.Props.RpcLock
import Verif.Props.Poll
import Verif.Props.Endpoints
import Verif.Props.References
import Verif.Props.Ctn
import Verif.Props.AlgList
import Verif.Props.ConfTree
import Verif.Props.Timeout
import Verif.Props.NcErr
import Verif.Props.PsConc
import Verif.Props.ClientBind
import Verif.Props.ModSel
import Verif.Props.AuthKeys
import Verif.Props.AuthPath
import Verif.Props.SshAuth
import Verif.Props.TlsAuth
import Verif.Props.TlsIo
import Verif.Props.ClientMsg
import Verif.Props.SshRing
import Verif.Props.ThreadCtx
import Verif.Props.Accept
import Verif.Props.CallHome
import Verif.Props.CertExp
import Verif.Props.ClientRpc
import Verif.Props.ClientSsh
import Verif.Props.ConfUtil
import Verif.Model.KeyUtil
import Verif.Spec.KeyUtil
import Verif.Lemmas.KeyUtil
import Verif.Props.KeyUtil
import Verif.Model.ServerRpc
import Verif.Spec.ServerRpc
import Verif.Lemmas.ServerRpc
import Verif.Props.ServerRpc
import Verif.Model.Crl
import Verif.Spec.Crl
import Verif.Lemmas.Crl
import Verif.Props.Crl
import Verif.Model.ConfStore
import Verif.Spec.ConfStore
import Verif.Lemmas.ConfStore
import Verif.Props.ConfStore
import Verif.Model.ConfUsers
import Verif.Spec.ConfUsers
import Verif.Lemmas.ConfUsers
import Verif.Props.ConfUsers
import Verif.Model.ConfTls
import Verif.Spec.ConfTls
import Verif.Lemmas.ConfTls
import Verif.Props.ConfTls
import Verif.Model.ConfEndpt
import Verif.Spec.ConfEndpt
import Verif.Lemmas.ConfEndpt
import Verif.Props.ConfEndpt
import Verif.Model.ConfCh
import Verif.Spec.ConfCh
import Verif.Lemmas.ConfCh
import Verif.Props.ConfCh
import Verif.Model.ConfSetup
import Verif.Spec.ConfSetup
import Verif.Lemmas.ConfSetup
import Verif.Props.ConfSetup
import Verif.Model.SockConnect
import Verif.Spec.SockConnect
import Verif.Lemmas.SockConnect
import Verif.Props.SockConnect
import Verif.Model.CtxFill
import Verif.Spec.CtxFill
import Verif.Lemmas.CtxFill
import Verif.Props.CtxFill
import Verif.Props.CtxFill2
import Verif.Model.CertDates
import Verif.Spec.CertDates
import Verif.Lemmas.CertDates
import Verif.Props.CertDates
import Verif.Model.Dnssec
import Verif.Spec.Dnssec
import Verif.Lemmas.Dnssec
import Verif.Props.Dnssec
import Verif.Model.UnixSock
import Verif.Spec.UnixSock
import Verif.Lemmas.UnixSock
import Verif.Props.UnixSock
import Verif.Model.ConnRes
import Verif.Spec.ConnRes
import Verif.Lemmas.ConnRes
import Verif.Props.ConnRes
import Verif.Model.TransCfg
import Verif.Lemmas.TransCfg
import Verif.Props.TransCfg
import Verif.Model.TtyPrompt
import Verif.Lemmas.TtyPrompt
import Verif.Props.TtyPrompt
import Verif.Model.HostKeys
import Verif.Lemmas.HostKeys
import Verif.Props.HostKeys
import Verif.Model.ServerLife
import Verif.Props.ServerLife
import Verif.Model.Locks
import Verif.Lemmas.Locks
import Verif.Props.Locks
import Verif.Model.PollIo
import Verif.Props.PollIo
import Verif.Model.ClientOpts
import Verif.Lemmas.ClientOpts
import Verif.Props.ClientOpts
import Verif.Model.Codec
import Verif.Props.Codec
import Verif.Model.SupAlgs
import Verif.Props.SupAlgs
import Verif.Model.Establish
import Verif.Lemmas.Establish
import Verif.Props.Establish
import Verif.Model.FixBuf
import Verif.Lemmas.FixBuf
import Verif.Props.FixBuf
import Verif.Model.TlsWrap
import Verif.Lemmas.TlsWrap
import Verif.Props.TlsWrap
import Verif.Model.Dialog
import Verif.Spec.Dialog
import Verif.Lemmas.Dialog
import Verif.Props.Dialog
import Verif.Model.TlsMem
import Verif.Spec.TlsMem
import Verif.Lemmas.TlsMem
import Verif.Props.TlsMem
import Verif.Model.Compat
import Verif.Spec.Compat
import Verif.Lemmas.Compat
import Verif.Props.Compat
import Verif.Model.Login
import Verif.Spec.Login
import Verif.Lemmas.Login
import Verif.Props.Login
import Verif.Model.TlsLogin
import Verif.Spec.TlsLogin
import Verif.Lemmas.TlsLogin
import Verif.Props.TlsLogin
import Verif.Model.ManyThreads
import Verif.Spec.ManyThreads
import Verif.Lemmas.ManyThreads
import Verif.Props.ManyThreads
import Verif.Model.ServerId
import Verif.Spec.ServerId
import Verif.Lemmas.ServerId
import Verif.Props.ServerId
import Verif.Props.ConfUtil2
import Verif.Props.KeyUtil2
import Verif.Props.Notif
import Verif.Props.ClientTls
import Verif.Model.SshTalk
import Verif.Spec.SshTalk
import Verif.Lemmas.SshTalk
import Verif.Props.SshTalk
import Verif.Model.PeerInfo
import Verif.Spec.PeerInfo
import Verif.Lemmas.PeerInfo
import Verif.Props.PeerInfo
import Verif.Model.TlsTalk
import Verif.Spec.TlsTalk
import Verif.Lemmas.TlsTalk
import Verif.Props.TlsTalk
import Verif.Model.ConfUse
import Verif.Spec.ConfUse
import Verif.Lemmas.ConfUse
import Verif.Props.ConfUse
import Verif.Model.ConfUserUse
import Verif.Spec.ConfUserUse
import Verif.Lemmas.ConfUserUse
import Verif.Props.ConfUserUse
import Verif.Model.ConfTlsUse
import Verif.Spec.ConfTlsUse
import Verif.Lemmas.ConfTlsUse
import Verif.Props.ConfTlsUse
import Verif.Model.ConfStoreUse
import Verif.Spec.ConfStoreUse
import Verif.Lemmas.ConfStoreUse
import Verif.Props.ConfStoreUse
import Verif.Model.ConfHostUse
import Verif.Spec.ConfHostUse
import Verif.Lemmas.ConfHostUse
import Verif.Props.ConfHostUse
import Verif.Model.ConfChUse
import Verif.Spec.ConfChUse
import Verif.Lemmas.ConfChUse
import Verif.Props.ConfChUse
import Verif.Model.SockOpt
import Verif.Spec.SockOpt
import Verif.Lemmas.SockOpt
import Verif.Props.SockOpt
import Verif.Model.RpcCb
import Verif.Spec.RpcCb
import Verif.Lemmas.RpcCb
import Verif.Props.RpcCb
import Verif.Model.ChCtx
import Verif.Spec.ChCtx
import Verif.Lemmas.ChCtx
import Verif.Props.ChCtx
import Verif.Model.ChDispatch
import Verif.Spec.ChDispatch
import Verif.Lemmas.ChDispatch
import Verif.Props.ChDispatch
import Verif.Model.CertThread
import Verif.Spec.CertThread
import Verif.Lemmas.CertThread
import Verif.Props.CertThread
import Verif.Model.ChFree
import Verif.Lemmas.ChFree
import Verif.Props.ChFree
import Verif.Model.ChanAccept
import Verif.Lemmas.ChanAccept
import Verif.Props.ChanAccept
import Verif.Model.PamAuth
import Verif.Props.PamAuth
import Verif.Model.MountData
import Verif.Lemmas.MountData
import Verif.Props.MountData
