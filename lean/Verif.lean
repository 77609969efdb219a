import Verif.Props.Encoding
import Verif.Props.Curve
import Verif.Model.Ecdsa
import Verif.Proofs.Pocklington
import Verif.Props.Ecdsa
import Verif.Props.NumberTheory
import Verif.Model.Keys
import Verif.Props.Der
import Verif.Props.Keys
import Verif.Props.KeysCases
import Verif.Props.Scalars
import Verif.Props.Aes
import Verif.Props.AesModes
import Verif.Proofs.Wire
import Verif.Props.Protocol
import Verif.Props.Util
import Verif.Props.Piecewise
import Verif.Props.Wallet
import Verif.Props.HDWallet
import Verif.Props.WalletCases
import Verif.Model.WalletFile
import Verif.Proofs.WalletFile
import Verif.Props.WalletFile
import Verif.Props.NodeStream
import Verif.Props.NodeAddresses
import Verif.Props.NodePeers
import Verif.Props.Gossip
import Verif.Props.Accepted
import Verif.Props.Uniform
import Verif.Props.Overshoot
import Verif.Props.NodeIdle
import Verif.Props.NodeLoop
import Verif.Props.NodeBeat
import Verif.Model.NodePoll
import Verif.Props.NodePoll
import Verif.Model.NodeStop
import Verif.Props.NodeStop
import Verif.Model.NodeClose
import Verif.Props.NodeClose
import Verif.Model.ConnEq
import Verif.Props.ConnEq
import Verif.Props.Amplify
import Verif.Props.WrongPass
import Verif.Proofs.WalletBlocks
import Verif.Props.WalletDamage
import Verif.Model.LogLine
import Verif.Proofs.LogLine
import Verif.Props.LogLine
import Verif.Model.Passphrase
import Verif.Props.Passphrase
import Verif.Props.NodeClock
import Verif.Model.KeyText
import Verif.Props.KeyText
import Verif.Props.SelfDial
import Verif.Model.Seed
import Verif.Props.Recovery
import Verif.Model.TwosComp
import Verif.Props.TwosComp
import Verif.Model.PeerTable
import Verif.Props.PeerTable
import Verif.Model.RawScratch
import Verif.Props.RawScratch
import Verif.Model.OwnMessages
import Verif.Props.OwnMessages
import Verif.Model.NodeInit
import Verif.Props.NodeInit
import Verif.Model.NodeFiles
import Verif.Props.NodeFiles
import Verif.Model.KeysUnchecked
import Verif.Props.KeysUnchecked
import Verif.Props.NodeBans
import Verif.Model.Commify
import Verif.Props.Commify
import Verif.Props.LogShown
import Verif.Model.CoinObject
import Verif.Props.CoinObject
import Verif.Props.BothPythons
import Verif.Props.Life
import Verif.Model.Version
import Verif.Props.Version
import Verif.Model.SeedText
import Verif.Props.SeedText
import Verif.Props.TryAgain
import Verif.Props.WhichError
import Verif.Props.Infinity
import Verif.Props.KeyFiles
import Verif.Props.TextKinds
import Verif.Props.SameExtended
import Verif.Props.NodeInfo
import Verif.Props.Pem
import Verif.Props.Sign
import Verif.Props.SplitSecrecy
import Verif.Props.Qr
import Verif.Props.ShortIp
import Verif.Props.IpLetters
import Verif.Props.HexText
import Verif.Props.Alert
import Verif.Props.Objects
import Verif.Props.Seeder
import Verif.Props.Heights
import Verif.Props.Portmap
import Verif.Props.Coin
import Verif.Props.Bip32
import Verif.Props.TwoNodes
import Verif.Props.MixedPieces
import Verif.Props.Bip66
import Verif.Props.Reading
import Verif.Props.LogText
import Verif.Props.Validated
import Verif.Props.Points
import Verif.Props.Seeds
import Verif.Props.PartialSecrecy
import Verif.Props.NodeIsolation
import Verif.Props.Binding
import Verif.Props.ChildLeak
import Verif.Model.HDMain
import Verif.Props.HDFlow
import Verif.Model.Readme
import Verif.Props.Readme
import Verif.Spec.Lenient
import Verif.Proofs.Lenient
import Verif.Props.Lenient
import Verif.Spec.Built
import Verif.Proofs.Made
import Verif.Proofs.Built
import Verif.Props.Built
import Verif.Model.Difficulty
import Verif.Spec.Double
import Verif.Proofs.Difficulty
import Verif.Props.Difficulty
import Verif.Model.Sha1
import Verif.Tests.Bip32
import Verif.Tests.Curve
import Verif.Tests.Der
import Verif.Tests.Rfc6979
import Verif.Tests.Wire
