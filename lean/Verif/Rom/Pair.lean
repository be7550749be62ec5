import Verif.Rom.Data64
import Verif.Rom.Data32
/-
The pairing constants of the ROM files of the curves with embedding degree 12, transcribed by a script from the sources.
-/
namespace Verif.Rom
open Verif.Big

/-- The constants a pairing-friendly ROM file adds to `Rom` (src/roms/rom_bls381_64.rs:49-66, 100-146, 168-170): `FRA`, `FRB`, `CURVE_BNX`, `CURVE_CRU`, the generator of
the second group, the kind of the twist and the sign of the curve parameter. -/
structure PairRom (C : Nat) where
  rom : Rom C
  fra : Limbs C
  frb : Limbs C
  bnx : Limbs C
  cru : Limbs C
  pxa : Limbs C
  pxb : Limbs C
  pya : Limbs C
  pyb : Limbs C
  mtype : Bool
  negx : Bool

/-- src/roms/rom_bls381_64.rs -/
def bls381_64p : PairRom 64 where
  rom := bls381_64
  fra := [0x10775ED92235FB8#64, 0x3A94F58F9E04F63#64, 0x3D784BAB9C4F67#64, 0x3F4F2F57D3DEC91#64, 0x202C0D1F0FD603#64, 0xAEC199F08C6FAD#64, 0x1904D3BF0#64]
  frb := [0xF78A126DDC4AF3#64, 0x356B0535B1FB08B#64, 0xEC971F63C5F282#64, 0x21EDB1ECDBFB032#64, 0x2231F9FB854A147#64, 0x1B1380CA23A7A40#64, 0xFC3E2B3#64]
  bnx := [0x201000000010000#64, 0x34#64, 0x0#64, 0x0#64, 0x0#64, 0x0#64, 0x0#64]
  cru := [0x201FFFFFFFEFFFE#64, 0x1F604D88280008B#64, 0x293BE6F89688DE1#64, 0x1DA83DDFAB76CE#64, 0x3DF76CE51BA69C6#64, 0x17C659CB#64, 0x0#64]
  pxa := [0x8056C8C121BDB8#64, 0x300C9AA016EFBF5#64, 0xB647AE3D1770BA#64, 0x353E900EC0AD144#64, 0x32DC51051C6E47A#64, 0x23C2A449820149#64, 0x24AA2B2F#64]
  pxb := [0x1AC7D055D042B7E#64, 0x33C4484E51755F9#64, 0x21BBDC7F5049334#64, 0x3426482D86AD769#64, 0x88274F65596BD0#64, 0x9C67D81F6B34E8#64, 0x13E02B605#64]
  pya := [0x193548608B82801#64, 0x2B2730EEB28A278#64, 0x1A695160D12C923#64, 0x2AA32F74E9DB50A#64, 0x2DA2E351AADFD9B#64, 0x9F5B8463327371#64, 0xCE5D5277#64]
  pyb := [0x2A9075FF05F79BE#64, 0x1C349D73B07686A#64, 0x12AB572E99AB3F3#64, 0x1FA169D8EBC99D2#64, 0x2BC28B99CB3E28#64, 0x3A9CD330CAB34AC#64, 0x606C4A02#64]
  mtype := true
  negx := true

/-- src/roms/rom_bls383_64.rs -/
def bls383_64p : PairRom 64 where
  rom := bls383_64
  fra := [0x52D72D3311DAC1#64, 0x24D203F99DCF806#64, 0x344AE550D8C8A36#64, 0x348FEE86A1A0959#64, 0x2C11B52F10E4C6C#64, 0x9FDA2F0CE2E7F0#64, 0x22ACD5BF0#64]
  frb := [0x1E446375298D5EA#64, 0xC2AA22FF4452F0#64, 0x3B684104C2BD72#64, 0x16ACEAE2A2CA76D#64, 0x15ECF3F939260D9#64, 0x8B017E5B388380#64, 0x32B880D66#64]
  bnx := [0x8000001001200#64, 0x40#64, 0x0#64, 0x0#64, 0x0#64, 0x0#64, 0x0#64]
  cru := [0xC367502EAAC2A9#64, 0x17DA068B7D974B7#64, 0x2F4A34DEA341BC2#64, 0xD36F75C5738948#64, 0x6E94874605445#64, 0x12ADBAD28116AD1#64, 0x556556956#64]
  pxa := [0x3CB3B62D7F2D86#64, 0x3F6AD9E57474F85#64, 0x1C90F562572EE81#64, 0x3214B55C96F51FC#64, 0x27CB1E746432501#64, 0x1FB00FA301E6425#64, 0x634D2240#64]
  pxb := [0x3D9E41EC452DE15#64, 0x12ACA355FF9837B#64, 0xBA88E92D5D75B5#64, 0x3B6741732277F66#64, 0x3288361DD24F498#64, 0x592EBCDE9DC5#64, 0x300D78006#64]
  pya := [0x68F0BB9408CB41#64, 0x27B793C83586597#64, 0x3ACA913A2E75B4#64, 0x359CF266CF9A25E#64, 0x33FE6347B6E990E#64, 0x34894D1F2527615#64, 0x33792CF93#64]
  pyb := [0x2D846437F479093#64, 0x10F2C379889218E#64, 0x32F449F7BC98B01#64, 0x111ACFBEA3DEBC2#64, 0x3D15A7AE001CE0D#64, 0xB3631AC93B9EE9#64, 0x20E5247DD#64]
  mtype := true
  negx := false

/-- src/roms/rom_bls461_64.rs -/
def bls461_64p : PairRom 64 where
  rom := bls461_64
  fra := [0xF7117BF9B812A3A#64, 0xA1C6308A599C400#64, 0x5A6510E07505BF8#64, 0xB31ACE4858D45FA#64, 0xFC61EBC2CB04770#64, 0x366190D073588E2#64, 0x69E55E24DFEFA84#64, 0x12E40504B7F#64]
  frb := [0xB3AE8410F298071#64, 0x7E39D4CAFBAE6A9#64, 0x104404777AFE407#64, 0xF5C52C13C3EBAF8#64, 0xB0685BEE7D443D1#64, 0x5CFE2C9EAADA4A8#64, 0x6BBFF7807D79990#64, 0x27150409D5#64]
  bnx := [0xFFBFFFE00000000#64, 0x1FFFF#64, 0x0#64, 0x0#64, 0x0#64, 0x0#64, 0x0#64, 0x0#64]
  cru := [0x40001FFFFFFFE#64, 0x6FFFE7FFFFE0000#64, 0x6047200C47F0FFF#64, 0x777115796DB7BCC#64, 0x3F0E89875433CF4#64, 0xBFFF60500050261#64, 0x1FFFFFE#64, 0x0#64]
  pxa := [0x65B503186D0A37C#64, 0xA9C2E492E75DCC4#64, 0x564E01F919D6878#64, 0x3F086DB74FF92F#64, 0xED78D46D581A668#64, 0x270C892F97C2907#64, 0x6A50A9AF679453C#64, 0x10CC54138A0#64]
  pxb := [0x9F85CA8C2C1C0AD#64, 0x96CD66C425CADE#64, 0x1AC612951A2896#64, 0xB17D529ABEBEE24#64, 0xC5AF5BA09D33F65#64, 0x6A672E4D4371ED4#64, 0xACEA37CA279D224#64, 0x95C1FB4FE5#64]
  pya := [0x7CCD0C1B02FB006#64, 0x953D194A4A12A33#64, 0x68B4960CFCC92C8#64, 0xBA0F3A9B00F39FC#64, 0xCDFD8A7DBBC5ED1#64, 0xE73ED227CC2F7A9#64, 0xEBA7E676070F4F4#64, 0x226AC848E7#64]
  pyb := [0x8A506ADFDF1457C#64, 0xB4D6A31DC04C20A#64, 0x668EA9A8F136E3F#64, 0x12973C3BE4492F5#64, 0xA20BE74BEABA67A#64, 0x5157F04C42E3856#64, 0xBB402EA2AB1D004#64, 0xE38101B4FA#64]
  mtype := true
  negx := true

/-- src/roms/rom_bn254_64.rs -/
def bn254_64p : PairRom 64 where
  rom := bn254_64
  fra := [0x7DE6C06F2A6DE9#64, 0x74924D3F77C2E1#64, 0x50A846953F8509#64, 0x212E7C8CB6499B#64, 0x1B377619#64]
  frb := [0x82193F90D5922A#64, 0x8B6DB2C08850C5#64, 0x2F57B96AC8DC17#64, 0x1ED1837503EAB2#64, 0x9EBEE69#64]
  bnx := [0x80000000000001#64, 0x40#64, 0x0#64, 0x0#64, 0x0#64]
  cru := [0x80000000000007#64, 0x6CD#64, 0x40000000024909#64, 0x49B362#64, 0x0#64]
  pxa := [0xEE4224C803FB2B#64, 0x8BBB4898BF0D91#64, 0x7E8C61EDB6A464#64, 0x519EB62FEB8D8C#64, 0x61A10BB#64]
  pxb := [0x8C34C1E7D54CF3#64, 0x746BAE3784B70D#64, 0x8C5982AA5B1F4D#64, 0xBA737833310AA7#64, 0x516AAF9#64]
  pya := [0xF0E07891CD2B9A#64, 0xAE6BDBE09BD19#64, 0x96698C822329BD#64, 0x6BAF93439A90E0#64, 0x21897A0#64]
  pyb := [0x2D1AEC6B3ACE9B#64, 0x6FFD739C9578A#64, 0x56F5F38D37B090#64, 0x7C8B15268F6D44#64, 0xEBB2B0E#64]
  mtype := false
  negx := true

/-- src/roms/rom_bn254cx_64.rs -/
def bn254cx_64p : PairRom 64 where
  rom := bn254cx_64
  fra := [0xD9083355C80EA3#64, 0x7326F173F8215B#64, 0x8AACA718986867#64, 0xA63A0164AFE18B#64, 0x1359082F#64]
  frb := [0x8D1BBC06534710#64, 0x63C7269546C062#64, 0xD9CDBC4E3ABBD8#64, 0x623628A900DC53#64, 0x10A6F7D0#64]
  bnx := [0x3C012B1#64, 0x40#64, 0x0#64, 0x0#64, 0x0#64]
  cru := [0xE0931794235C97#64, 0xDF6471EF875631#64, 0xCA83F1440BD#64, 0x480000#64, 0x0#64]
  pxa := [0x851CEEE4D2EC74#64, 0x85BFA03E2726C0#64, 0xF5C34BBB907C#64, 0x7053B256358B25#64, 0x19682D2C#64]
  pxb := [0xA58E8B2E29CFE1#64, 0x97B0C209C30F47#64, 0x37A8E99743F81B#64, 0x3E19F64AA011C9#64, 0x1466B9EC#64]
  pya := [0xFBFCEBCF0BE09F#64, 0xB33D847EC1B30C#64, 0x157DAEE2096361#64, 0x72332B8DD81E22#64, 0xA79EDD9#64]
  pyb := [0x904B228898EE9D#64, 0x4EA569D2EDEBED#64, 0x512D8D3461C286#64, 0xECC4C09035C6E4#64, 0x6160C39#64]
  mtype := false
  negx := true

/-- src/roms/rom_fp256bn_64.rs -/
def fp256bn_64p : PairRom 64 where
  rom := fp256bn_64
  fra := [0x760328AF943106#64, 0x71511E3AB28F74#64, 0x8DDB0867CF39A1#64, 0xCA786F352D1A6E#64, 0x3D617662#64]
  frb := [0xB32AB2FF3EFF0D#64, 0xF4A9F45D57F35E#64, 0xD113693CCFD33A#64, 0x3584819819CB83#64, 0xC29E899D#64]
  bnx := [0x82F5C030B0A801#64, 0x68#64, 0x0#64, 0x0#64, 0x0#64]
  cru := [0x1C0A24A3A1B807#64, 0xD79DF1932D1EDB#64, 0x40921018659BCD#64, 0x13988E1#64, 0x0#64]
  pxa := [0x2616B689C09EFB#64, 0x539A12BF843CD2#64, 0x577C28913ACE1C#64, 0xB4C96C2028560F#64, 0xFE0C3350#64]
  pxb := [0x69ED34A37E6A2B#64, 0x78E287D03589D2#64, 0xC637D813B924DD#64, 0x738AC054DB5AE1#64, 0x4EA66057#64]
  pya := [0x9B481BEDC27FF#64, 0x24758D615848E9#64, 0x75124E3E51EFCB#64, 0xC542A3B376770D#64, 0x702046E7#64]
  pyb := [0x1281114AAD049B#64, 0xBE80821A98B3E0#64, 0x49297EB29F8B4C#64, 0xD388C29042EEA6#64, 0x554E3BC#64]
  mtype := true
  negx := true

/-- src/roms/rom_fp512bn_64.rs -/
def fp512bn_64p : PairRom 64 where
  rom := fp512bn_64
  fra := [0x49617B1F4B73AB2#64, 0x71514F6202AED1F#64, 0xF6080D3BD8681E1#64, 0xF8AA9E852CBBB59#64, 0xC8CF2E2068398E9#64, 0x8A5296F791AB26B#64, 0x196A8C7C68B4EA1#64, 0xCF5BBF9095A1B79#64, 0x1EF71AA9#64]
  frb := [0x5510572DF6B481#64, 0xF9047EFD49B595C#64, 0xD055DD765E95FAF#64, 0xD6740E396BFD2EE#64, 0x7341ECEE8C1B85C#64, 0x1786345B7615952#64, 0xE695124B876776A#64, 0x30A4406F6A5E486#64, 0xE108E556#64]
  bnx := [0xB306BB5E1BD80F#64, 0x82F5C030B0F7F01#64, 0x68#64, 0x0#64, 0x0#64, 0x0#64, 0x0#64, 0x0#64, 0x0#64]
  cru := [0xB0716209C79298A#64, 0xCEE6799B8B17C14#64, 0x78966BE526092AE#64, 0x20089C27507ACD8#64, 0xF8EF7611FA3074B#64, 0x6146B86B378EA2C#64, 0xFFFF9EC7DC83D2A#64, 0xFFFFFFFFFFFFFFF#64, 0xFFFFFFFF#64]
  pxa := [0xF07A96E0DB646B5#64, 0x18F87319072FFE8#64, 0x7BE21BCBBC78F22#64, 0x537863514DC6DC5#64, 0xDA57CC78CD0B024#64, 0xD29B358F0DB9B57#64, 0x7412F3CEA1E4BBB#64, 0xE138648958801BA#64, 0x3B165339#64]
  pxb := [0xDB5CBEFDA8AE0E9#64, 0xCA411CD88911B3#64, 0xD6E1383D5ADCE4#64, 0x227285526E0D5E5#64, 0xB02566B94D9781E#64, 0x56DC6C6EF2476A8#64, 0x680ABE8B4825EA6#64, 0xF85067E6C89B4C4#64, 0x481C13CB#64]
  pya := [0x2480312ADDE67A1#64, 0xDA17AD615EFB85E#64, 0x312542808B7BC5C#64, 0x18BDEC153E8EDD2#64, 0xE5C158699D4B6CD#64, 0xB1DF660AFCDD03E#64, 0xB0CBA374F277085#64, 0xC827C7B8292EF5A#64, 0x6F01EC84#64]
  pyb := [0x58B7186C84F8E8B#64, 0xF05C2224BF76168#64, 0x10AD7EE279C08DF#64, 0x7FC3E2E50714A43#64, 0x3D04961941DA289#64, 0x38C118867B0C9B6#64, 0xC315F75D91F0214#64, 0x8B04E7831AC3640#64, 0x51A3BCEC#64]
  mtype := true
  negx := false

/-- src/roms/rom_bls381_32.rs -/
def bls381_32p : PairRom 32 where
  rom := bls381_32
  fra := [0x12235FB8#32, 0x83BAF6C#32, 0x19E04F63#32, 0x1D4A7AC7#32, 0xB9C4F67#32, 0x1EBC25D#32, 0x1D3DEC91#32, 0x1FA797AB#32, 0x1F0FD603#32, 0x1016068#32, 0x108C6FAD#32, 0x5760CCF#32, 0x104D3BF0#32, 0xC#32]
  frb := [0xDDC4AF3#32, 0x7BC5093#32, 0x1B1FB08B#32, 0x1AB5829A#32, 0x3C5F282#32, 0x764B8FB#32, 0xDBFB032#32, 0x10F6D8F6#32, 0x1854A147#32, 0x1118FCFD#32, 0x23A7A40#32, 0xD89C065#32, 0xFC3E2B3#32, 0x0#32]
  bnx := [0x10000#32, 0x10080000#32, 0x34#32, 0x0#32, 0x0#32, 0x0#32, 0x0#32, 0x0#32, 0x0#32, 0x0#32, 0x0#32, 0x0#32, 0x0#32, 0x0#32]
  cru := [0x1FFEFFFE#32, 0x100FFFFF#32, 0x280008B#32, 0xFB026C4#32, 0x9688DE1#32, 0x149DF37C#32, 0x1FAB76CE#32, 0xED41EE#32, 0x11BA69C6#32, 0x1EFBB672#32, 0x17C659CB#32, 0x0#32, 0x0#32, 0x0#32]
  pxa := [0x121BDB8#32, 0x402B646#32, 0x16EFBF5#32, 0x18064D50#32, 0x1D1770BA#32, 0x5B23D71#32, 0xC0AD144#32, 0x1A9F4807#32, 0x11C6E47A#32, 0x196E2882#32, 0x9820149#32, 0x11E1522#32, 0x4AA2B2F#32, 0x1#32]
  pxb := [0x1D042B7E#32, 0xD63E82A#32, 0x51755F9#32, 0x19E22427#32, 0x15049334#32, 0x10DDEE3F#32, 0x186AD769#32, 0x1A132416#32, 0x5596BD0#32, 0x4413A7B#32, 0x1F6B34E8#32, 0x4E33EC0#32, 0x1E02B605#32, 0x9#32]
  pya := [0x8B82801#32, 0xC9AA430#32, 0xB28A278#32, 0x15939877#32, 0xD12C923#32, 0xD34A8B0#32, 0xE9DB50A#32, 0x155197BA#32, 0x1AADFD9B#32, 0x16D171A8#32, 0x3327371#32, 0x4FADC23#32, 0xE5D5277#32, 0x6#32]
  pyb := [0x105F79BE#32, 0x15483AFF#32, 0x1B07686A#32, 0xE1A4EB9#32, 0x99AB3F3#32, 0x955AB97#32, 0xEBC99D2#32, 0xFD0B4EC#32, 0x19CB3E28#32, 0x15E145C#32, 0xCAB34AC#32, 0x1D4E6998#32, 0x6C4A02#32, 0x3#32]
  mtype := true
  negx := true

/-- src/roms/rom_bls383_32.rs -/
def bls383_32p : PairRom 32 where
  rom := bls383_32
  fra := [0x1311DAC1#32, 0x296B969#32, 0x19DCF806#32, 0x126901FC#32, 0xD8C8A36#32, 0x1A2572A8#32, 0xA1A0959#32, 0x1A47F743#32, 0x110E4C6C#32, 0x1608DA97#32, 0xCE2E7F0#32, 0x4FED178#32, 0xACD5BF0#32, 0x11#32]
  frb := [0x1298D5EA#32, 0xF2231BA#32, 0x1F4452F0#32, 0x6155117#32, 0x4C2BD72#32, 0x1DB4208#32, 0xA2CA76D#32, 0xB567571#32, 0x139260D9#32, 0xAF679FC#32, 0x1B388380#32, 0x4580BF2#32, 0xB880D66#32, 0x19#32]
  bnx := [0x1001200#32, 0x400000#32, 0x40#32, 0x0#32, 0x0#32, 0x0#32, 0x0#32, 0x0#32, 0x0#32, 0x0#32, 0x0#32, 0x0#32, 0x0#32, 0x0#32]
  cru := [0xEAAC2A9#32, 0x61B3A81#32, 0x17D974B7#32, 0xBED0345#32, 0xA341BC2#32, 0x17A51A6F#32, 0x5738948#32, 0x69B7BAE#32, 0x14605445#32, 0x374A43#32, 0x8116AD1#32, 0x956DD69#32, 0x16556956#32, 0x2A#32]
  pxa := [0xD7F2D86#32, 0x1E59DB1#32, 0x17474F85#32, 0x1FB56CF2#32, 0x572EE81#32, 0xE487AB1#32, 0x96F51FC#32, 0x190A5AAE#32, 0x6432501#32, 0x13E58F3A#32, 0x101E6425#32, 0xFD807D1#32, 0x34D2240#32, 0x3#32]
  pxb := [0x452DE15#32, 0x1ECF20F6#32, 0x1FF9837B#32, 0x95651AA#32, 0xD5D75B5#32, 0x5D44749#32, 0x12277F66#32, 0x1DB3A0B9#32, 0x1D24F498#32, 0x19441B0E#32, 0x1CDE9DC5#32, 0x2C975#32, 0xD78006#32, 0x18#32]
  pya := [0x1408CB41#32, 0x34785DC#32, 0x3586597#32, 0x13DBC9E4#32, 0x1A2E75B4#32, 0x1D65489#32, 0xCF9A25E#32, 0x1ACE7933#32, 0x1B6E990E#32, 0x19FF31A3#32, 0x12527615#32, 0x1A44A68F#32, 0x1792CF93#32, 0x19#32]
  pyb := [0x1F479093#32, 0x16C2321B#32, 0x1889218E#32, 0x87961BC#32, 0x1BC98B01#32, 0x197A24FB#32, 0xA3DEBC2#32, 0x88D67DF#32, 0x1CE0D#32, 0x1E8AD3D7#32, 0x93B9EE9#32, 0x59B18D6#32, 0xE5247DD#32, 0x10#32]
  mtype := true
  negx := false

/-- src/roms/rom_bls461_32.rs -/
def bls461_32p : PairRom 32 where
  rom := bls461_32
  fra := [0xB812A3A#32, 0x7117BF9#32, 0x99C400F#32, 0xC6308A5#32, 0x5BF8A1#32, 0x510E075#32, 0x45FA5A6#32, 0xCE4858D#32, 0x770B31A#32, 0xBC2CB04#32, 0xE2FC61E#32, 0xD073588#32, 0x4366190#32, 0x4DFEFA8#32, 0x69E55E2#32, 0x504B7F#32, 0x12E4#32]
  frb := [0xF298071#32, 0x3AE8410#32, 0xBAE6A9B#32, 0x39D4CAF#32, 0xFE4077E#32, 0x404777A#32, 0xBAF8104#32, 0x2C13C3E#32, 0x3D1F5C5#32, 0xBEE7D44#32, 0xA8B0685#32, 0x9EAADA4#32, 0x5CFE2C#32, 0x7D7999#32, 0x6BBFF78#32, 0x50409D5#32, 0x271#32]
  bnx := [0x0#32, 0xFBFFFE0#32, 0x1FFFFF#32, 0x0#32, 0x0#32, 0x0#32, 0x0#32, 0x0#32, 0x0#32, 0x0#32, 0x0#32, 0x0#32, 0x0#32, 0x0#32, 0x0#32, 0x0#32, 0x0#32]
  cru := [0xFFFFFFE#32, 0x40001F#32, 0xFE00000#32, 0xFFE7FFF#32, 0xF0FFF6F#32, 0x7200C47#32, 0x7BCC604#32, 0x15796DB#32, 0xCF47771#32, 0x9875433#32, 0x613F0E8#32, 0x5000502#32, 0xEBFFF60#32, 0x1FFFFF#32, 0x0#32, 0x0#32, 0x0#32]
  pxa := [0x6D0A37C#32, 0x5B50318#32, 0x75DCC46#32, 0xC2E492E#32, 0xD6878A9#32, 0xE01F919#32, 0xF92F564#32, 0x86DB74F#32, 0x66803F0#32, 0x46D581A#32, 0x7ED78D#32, 0x2F97C29#32, 0xC270C89#32, 0xF679453#32, 0x6A50A9A#32, 0x54138A0#32, 0x10CC#32]
  pxb := [0x2C1C0AD#32, 0xF85CA8C#32, 0x25CADE9#32, 0x6CD66C4#32, 0xA289609#32, 0xC612951#32, 0xEE2401A#32, 0x529ABEB#32, 0xF65B17D#32, 0xBA09D33#32, 0xD4C5AF5#32, 0x4D4371E#32, 0x46A672E#32, 0xA279D22#32, 0xACEA37C#32, 0x1FB4FE5#32, 0x95C#32]
  pya := [0x2FB006#32, 0xCCD0C1B#32, 0xA12A337#32, 0x3D194A4#32, 0xC92C895#32, 0x4960CFC#32, 0x39FC68B#32, 0x3A9B00F#32, 0xED1BA0F#32, 0xA7DBBC5#32, 0xA9CDFD8#32, 0x27CC2F7#32, 0x4E73ED2#32, 0x6070F4F#32, 0xEBA7E67#32, 0xAC848E7#32, 0x226#32]
  pyb := [0xDF1457C#32, 0xA506ADF#32, 0x4C20A8#32, 0xD6A31DC#32, 0x36E3FB4#32, 0xEA9A8F1#32, 0x92F5668#32, 0x3C3BE44#32, 0x67A1297#32, 0x74BEABA#32, 0x56A20BE#32, 0x4C42E38#32, 0x45157F0#32, 0x2AB1D00#32, 0xBB402EA#32, 0x101B4FA#32, 0xE38#32]
  mtype := true
  negx := true

/-- src/roms/rom_bn254_32.rs -/
def bn254_32p : PairRom 32 where
  rom := bn254_32
  fra := [0xF2A6DE9#32, 0x7DE6C06#32, 0xF77C2E1#32, 0x74924D3#32, 0x53F8509#32, 0x50A8469#32, 0xCB6499B#32, 0x212E7C8#32, 0xB377619#32, 0x1#32]
  frb := [0xD5922A#32, 0x82193F9#32, 0x8850C5#32, 0x8B6DB2C#32, 0xAC8DC17#32, 0x2F57B96#32, 0x503EAB2#32, 0x1ED1837#32, 0x9EBEE69#32, 0x0#32]
  bnx := [0x1#32, 0x8000000#32, 0x40#32, 0x0#32, 0x0#32, 0x0#32, 0x0#32, 0x0#32, 0x0#32, 0x0#32]
  cru := [0x7#32, 0x8000000#32, 0x6CD#32, 0x0#32, 0x24909#32, 0x4000000#32, 0x49B362#32, 0x0#32, 0x0#32, 0x0#32]
  pxa := [0x803FB2B#32, 0xEE4224C#32, 0x8BF0D91#32, 0x8BBB489#32, 0xDB6A464#32, 0x7E8C61E#32, 0xFEB8D8C#32, 0x519EB62#32, 0x61A10BB#32, 0x0#32]
  pxb := [0x7D54CF3#32, 0x8C34C1E#32, 0x784B70D#32, 0x746BAE3#32, 0xA5B1F4D#32, 0x8C5982A#32, 0x3310AA7#32, 0xBA73783#32, 0x516AAF9#32, 0x0#32]
  pya := [0x1CD2B9A#32, 0xF0E0789#32, 0xE09BD19#32, 0xAE6BDB#32, 0x22329BD#32, 0x96698C8#32, 0x39A90E0#32, 0x6BAF934#32, 0x21897A0#32, 0x0#32]
  pyb := [0xB3ACE9B#32, 0x2D1AEC6#32, 0x9C9578A#32, 0x6FFD73#32, 0xD37B090#32, 0x56F5F38#32, 0x68F6D44#32, 0x7C8B152#32, 0xEBB2B0E#32, 0x0#32]
  mtype := false
  negx := true

/-- src/roms/rom_bn254cx_32.rs -/
def bn254cx_32p : PairRom 32 where
  rom := bn254cx_32
  fra := [0x5C80EA3#32, 0xD908335#32, 0x3F8215B#32, 0x7326F17#32, 0x8986867#32, 0x8AACA71#32, 0x4AFE18B#32, 0xA63A016#32, 0x359082F#32, 0x1#32]
  frb := [0x6534710#32, 0x8D1BBC0#32, 0x546C062#32, 0x63C7269#32, 0xE3ABBD8#32, 0xD9CDBC4#32, 0x900DC53#32, 0x623628A#32, 0xA6F7D0#32, 0x1#32]
  bnx := [0x3C012B1#32, 0x0#32, 0x40#32, 0x0#32, 0x0#32, 0x0#32, 0x0#32, 0x0#32, 0x0#32, 0x0#32]
  cru := [0x4235C97#32, 0xE093179#32, 0xF875631#32, 0xDF6471E#32, 0xF1440BD#32, 0xCA83#32, 0x480000#32, 0x0#32, 0x0#32, 0x0#32]
  pxa := [0x4D2EC74#32, 0x851CEEE#32, 0xE2726C0#32, 0x85BFA03#32, 0xBBB907C#32, 0xF5C34#32, 0x6358B25#32, 0x7053B25#32, 0x9682D2C#32, 0x1#32]
  pxb := [0xE29CFE1#32, 0xA58E8B2#32, 0x9C30F47#32, 0x97B0C20#32, 0x743F81B#32, 0x37A8E99#32, 0xAA011C9#32, 0x3E19F64#32, 0x466B9EC#32, 0x1#32]
  pya := [0xF0BE09F#32, 0xFBFCEBC#32, 0xEC1B30C#32, 0xB33D847#32, 0x2096361#32, 0x157DAEE#32, 0xDD81E22#32, 0x72332B8#32, 0xA79EDD9#32, 0x0#32]
  pyb := [0x898EE9D#32, 0x904B228#32, 0x2EDEBED#32, 0x4EA569D#32, 0x461C286#32, 0x512D8D3#32, 0x35C6E4#32, 0xECC4C09#32, 0x6160C39#32, 0x0#32]
  mtype := false
  negx := true

/-- src/roms/rom_fp256bn_32.rs -/
def fp256bn_32p : PairRom 32 where
  rom := fp256bn_32
  fra := [0xF943106#32, 0x760328A#32, 0xAB28F74#32, 0x71511E3#32, 0x7CF39A1#32, 0x8DDB086#32, 0x52D1A6E#32, 0xCA786F3#32, 0xD617662#32, 0x3#32]
  frb := [0xF3EFF0D#32, 0xB32AB2F#32, 0xD57F35E#32, 0xF4A9F45#32, 0xCCFD33A#32, 0xD113693#32, 0x819CB83#32, 0x3584819#32, 0x29E899D#32, 0xC#32]
  bnx := [0xB0A801#32, 0x82F5C03#32, 0x68#32, 0x0#32, 0x0#32, 0x0#32, 0x0#32, 0x0#32, 0x0#32, 0x0#32]
  cru := [0x3A1B807#32, 0x1C0A24A#32, 0x32D1EDB#32, 0xD79DF19#32, 0x8659BCD#32, 0x4092101#32, 0x13988E1#32, 0x0#32, 0x0#32, 0x0#32]
  pxa := [0x9C09EFB#32, 0x2616B68#32, 0xF843CD2#32, 0x539A12B#32, 0x13ACE1C#32, 0x577C289#32, 0x28560F#32, 0xB4C96C2#32, 0xE0C3350#32, 0xF#32]
  pxb := [0x37E6A2B#32, 0x69ED34A#32, 0x3589D2#32, 0x78E287D#32, 0x3B924DD#32, 0xC637D81#32, 0x4DB5AE1#32, 0x738AC05#32, 0xEA66057#32, 0x4#32]
  pya := [0xEDC27FF#32, 0x9B481B#32, 0x15848E9#32, 0x24758D6#32, 0xE51EFCB#32, 0x75124E3#32, 0x376770D#32, 0xC542A3B#32, 0x2046E7#32, 0x7#32]
  pyb := [0xAAD049B#32, 0x1281114#32, 0xA98B3E0#32, 0xBE80821#32, 0x29F8B4C#32, 0x49297EB#32, 0x42EEA6#32, 0xD388C29#32, 0x554E3BC#32, 0x0#32]
  mtype := true
  negx := true

/-- the curves with embedding degree 12, 64-bit -/
def pairs64 : List (PairRom 64) := [bls381_64p, bls383_64p, bls461_64p, bn254_64p, bn254cx_64p, fp256bn_64p, fp512bn_64p]
/-- the curves with embedding degree 12, 32-bit -/
def pairs32 : List (PairRom 32) := [bls381_32p, bls383_32p, bls461_32p, bn254_32p, bn254cx_32p, fp256bn_32p]
end Verif.Rom
