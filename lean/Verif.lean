import Verif.Props.Addr
import Verif.Props.Alerts
import Verif.Props.Bencode
import Verif.Props.Country
import Verif.Props.DhtExchange
import Verif.Props.DhtLookup
import Verif.Props.DhtTable
import Verif.Props.DhtResponder
import Verif.Props.Encoding
import Verif.Props.Http
import Verif.Props.HttpComm
import Verif.Props.Location
import Verif.Props.SelectedFiles
import Verif.Props.HttpAnnounce
import Verif.Props.KeyExchange
import Verif.Props.Layout
import Verif.Props.Magnet
import Verif.Props.Metadata
import Verif.Props.PeerMessage
import Verif.Props.PieceState
import Verif.Props.Progress
import Verif.Props.FileCheck
import Verif.Props.Storage
import Verif.Props.UtpDatagram
import Verif.Props.UtpStream
import Verif.Props.UtpSafe
import Verif.Props.UtpSack
import Verif.Props.WriteCache
import Verif.Props.UdpTracker
import Verif.Props.UdpDispatch
import Verif.Props.Trackers
import Verif.Props.Bandwidth
import Verif.Props.Uploader
import Verif.Props.Downloader
import Verif.Props.DownloaderSafe
import Verif.Props.State
import Verif.Props.Pex
import Verif.Props.Peers
import Verif.Props.Torrent
import Verif.Props.Core
import Verif.Props.Config
import Verif.Model.Sha1
import Verif.Spec.Sha1
import Verif.Proof.Sha1
import Verif.Props.Sha1
import Verif.Model.Encryption
import Verif.Spec.Encryption
import Verif.Proof.Encryption
import Verif.Proof.RC4Code
import Verif.Props.Encryption
import Verif.Props.EncryptedStream
import Verif.Model.Extension
import Verif.Spec.Extension
import Verif.Proof.Extension
import Verif.Props.Extension
import Verif.Model.Metafile
import Verif.Spec.Metafile
import Verif.Proof.Metafile
import Verif.Props.Metafile
import Verif.Model.Upnp
import Verif.Spec.Upnp
import Verif.Proof.Upnp
import Verif.Props.Upnp
import Verif.Model.Tcp
import Verif.Spec.Tcp
import Verif.Proof.Tcp
import Verif.Props.Tcp
import Verif.Model.PeerStream
import Verif.Spec.PeerStream
import Verif.Proof.PeerStream
import Verif.Props.PeerStream
import Verif.Model.Incoming
import Verif.Props.Incoming
import Verif.Model.UdpSocket
import Verif.Spec.UdpSocket
import Verif.Props.UdpSocket
import Verif.Model.UtpManager
import Verif.Props.UtpManager
import Verif.Props.DownloaderTell
import Verif.Props.PeersEval
import Verif.Props.MetadataServe
import Verif.Props.MetadataDownload
import Verif.Props.DhtSource
import Verif.Props.DataLeft
import Verif.Props.FileProgress
import Verif.Props.TorrentProgress
import Verif.Props.Ports
import Verif.Props.Measures
import Verif.Props.RandomData
