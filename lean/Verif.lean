import Verif.Props.Wire
import Verif.Props.Kex
import Verif.Props.KexAgree
import Verif.Props.Filter
import Verif.Props.Auth
import Verif.Props.Buffer
import Verif.Props.Channel
import Verif.Props.ChannelTx
import Verif.Props.ChannelOpen
import Verif.Props.Packet
import Verif.Props.Highwater
import Verif.Props.Receive
import Verif.Props.Version
import Verif.Props.Gex
import Verif.Props.Kdf
import Verif.Props.Exchange
import Verif.Props.Path
import Verif.Props.Request
import Verif.Props.Sftp
import Verif.Props.SftpIo
import Verif.Props.SftpLoop
import Verif.Props.Keying
import Verif.Props.Scp
import Verif.Props.ScpSource
import Verif.Props.ScpDisk
import Verif.Props.ScpSendDisk
import Verif.Props.ScpDest
import Verif.Props.OsshCert
import Verif.Props.Sshd
import Verif.Props.SshdConfig
import Verif.Props.SshdAuth
import Verif.Props.SshdLogin
import Verif.Props.SshdSession
import Verif.Props.SftpClient
import Verif.Props.KnownHosts
import Verif.Props.ClientAuth
import Verif.Props.SftpOps
import Verif.Props.SftpLs
import Verif.Props.ClientReq
import Verif.Props.Setup
import Verif.Props.Modes
import Verif.Props.Agent
import Verif.Props.ServerSetup
import Verif.Props.HostKeys
import Verif.Props.SshdShell
import Verif.Props.PemBundle
import Verif.Props.OsshKey
import Verif.Props.ReadKey
import Verif.Props.CertMan
import Verif.Props.Composite
import Verif.Props.TransMsg
import Verif.Props.CertKey
import Verif.Props.SshdSetup
import Verif.Props.SshdPid
import Verif.Props.ReadCert
import Verif.Props.IdentKey
import Verif.Props.ReadFile
import Verif.Props.IdentCert
