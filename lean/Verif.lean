import Verif.Props.Hash
import Verif.Props.Big
import Verif.Props.Aes
import Verif.Props.Gcm
import Verif.Props.Ecdh
import Verif.Props.Rsa
import Verif.Props.Sha3
import Verif.Props.Rand
import Verif.Props.Rom
import Verif.Props.Fp
import Verif.Props.Ecp
import Verif.Props.Nhs
import Verif.Props.Dh
import Verif.Props.Bls
import Verif.Props.BlsScheme
import Verif.Props.Tower
import Verif.Props.Prime
import Verif.Props.Tower2
import Verif.Props.Ecp2
import Verif.Props.Edwards
import Verif.Props.Montgomery
import Verif.Props.Subgroup
import Verif.Props.H2c
import Verif.Props.BlsReal
import Verif.Props.Ff
import Verif.Props.Gt
import Verif.Props.Ecp2Codec
import Verif.Props.DhGen
import Verif.Props.DhMont
import Verif.Props.GroupOrder
import Verif.Props.Mpin
import Verif.Props.MpinRom
import Verif.Props.Ate
import Verif.Props.AteText
import Verif.Props.Bilinear
import Verif.Props.NonDeg
import Verif.Props.MpinReal
import Verif.Props.BlsPair
