import Verif.Props.MemXor
import Verif.Props.Mpi.AddSub
import Verif.Props.Mpi.Shift
import Verif.Props.Mpi.Mul
import Verif.Props.Mpi.Div
import Verif.Props.Mpi.NumTheory
import Verif.Props.Mpi.Conv
import Verif.Props.Mpi.Str
import Verif.Props.ListInit
import Verif.Props.Mpi.Prime
import Verif.Props.Mpi.PrimeGen
import Verif.Props.Modes.Cbc
import Verif.Props.Modes.Cfb
import Verif.Props.Modes.Ctr
import Verif.Props.Modes.Gcm
import Verif.Props.Modes.Mac
import Verif.Props.Modes.Wrap
import Verif.Props.Crypt.Aes
import Verif.Props.Crypt.Base64
import Verif.Props.Crypt.Arc4
import Verif.Props.Crypt.Arc4States
import Verif.Props.Crypt.Crc
import Verif.Props.Crypt.CrcErrors
import Verif.Props.Crypt.Des
import Verif.Props.Crypt.DesKeys
import Verif.Props.Hash.Sha256
import Verif.Props.Hash.Sha1
import Verif.Props.Hash.Md5
import Verif.Props.Hash.Sha512
import Verif.Props.Hash.Collide
import Verif.Props.Hash.HmacWide
import Verif.Props.Hash.HmacKeys
import Verif.Props.Modes.Errors
import Verif.Props.Modes.Forgery
import Verif.Props.Hash.Hmac
import Verif.Props.LongInv
import Verif.Props.Crypt.Affine
import Verif.Props.Crypt.Hill
import Verif.Props.Crypt.Trivium
import Verif.Props.Crypt.TriviumStates
import Verif.Props.Prng.Aes
import Verif.Props.Prng.AesCycle
import Verif.Props.Prng.Lfsr113
import Verif.Props.Prng.Period
import Verif.Props.Pk.Dh
import Verif.Props.Pk.Dsa
import Verif.Props.Pk.Elgamal
import Verif.Props.Pk.Rsa
import Verif.Props.Pk.RsaGen
import Verif.Props.Pk.DsaGen
import Verif.Props.Pk.DsaGenRun
import Verif.Props.Ecp.Ecp
import Verif.Props.Pk.Ecdh
import Verif.Props.Pk.Peers
import Verif.Props.Pk.Ecdsa
import Verif.Props.Ecp.Curves
import Verif.Props.Modes.AesModes
import Verif.Props.Mem.Basic
import Verif.Props.Mem.Mul
import Verif.Props.Mem.Div
import Verif.Props.Mem.NumTheory
import Verif.Props.Mem.Conv
import Verif.Props.Mem.Ecp
import Verif.Props.Mem.EcpLife
import Verif.Props.Mem.Dsa
import Verif.Props.Mem.Ecdsa
import Verif.Props.Mem.Contexts
import Verif.Props.Mem.Agree
import Verif.Props.Mem.Elgamal
import Verif.Props.Ram.Cbc
import Verif.Props.Ram.Cfb
import Verif.Props.Ram.Ctr
import Verif.Props.Ram.Gcm
import Verif.Props.Ram.Stream
import Verif.Props.Ram.Base64
import Verif.Props.Ram.Block
import Verif.Props.Ram.Prng
import Verif.Props.Ram.Cmac
import Verif.Props.Ram.Crc
import Verif.Props.Ram.CrcFinal
import Verif.Props.Ram.Hash
import Verif.Props.Ram.Wrap
import Verif.Props.Mem.Prime
import Verif.Props.Mem.Rsa
import Verif.Props.Mem.DsaGen
import Verif.Props.Mem.RsaGen
import Verif.Props.Mem.Safe
import Verif.Props.Mpi.Config
import Verif.Props.Mpi.ConfigMul
import Verif.Props.Ecp.MulBin
