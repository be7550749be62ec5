import Verif.Rom.Model
/-
The constants of the 64-bit ROM files `src/roms/rom_*_64.rs`, transcribed by a script from the sources.
`p` is not a constant of the ROM file: it is the modulus as an integer, and the theorems check it against
the limbs of `MODULUS`.
-/
namespace Verif.Rom
open Verif.Fp

/-- src/roms/rom_anssi_64.rs -/
def anssi_64 : Rom 64 where
  modbytes := 32
  P := ⟨56, 5, 256, 24, 7, .NotSpecial, [0xFCF353D86E9C03#64, 0xADBCABC8CA6DE8#64, 0xE8CE42435B3961#64, 0xB3AD58F10126D#64, 0xF1FD178C#64], [0x18D2374288CC9C#64, 0x4929E67646BD2B#64, 0x220E6C1D6F7F2D#64, 0x751B1FDABCE02E#64, 0xE7401B78#64], 0x97483A164E1155#64⟩
  p := 0xF1FD178C0B3AD58F10126DE8CE42435B3961ADBCABC8CA6DE8FCF353D86E9C03
  ctype := .weierstrass
  a := -3
  bI := 0
  bv := [0x75ED967B7BB73F#64, 0xC9AE4B1A18030#64, 0x754A44C00FDFEC#64, 0x5428A9300D4ABA#64, 0xEE353FCA#64]
  gx := [0xC97A2DD98F5CFF#64, 0xD2DCAF98B70164#64, 0x4749D423958C27#64, 0x56C139EB31183D#64, 0xB6B3D4C3#64]
  gy := [0x115A1554062CFB#64, 0xC307E8E4C9E183#64, 0xF0F3ECEF8C2701#64, 0xC8B204911F9271#64, 0x6142E0F7#64]
  order := [0xFDD459C6D655E1#64, 0x67E140D2BF941F#64, 0xE8CE42435B53DC#64, 0xB3AD58F10126D#64, 0xF1FD178C#64]
  cofI := 1
  cof := [0x1#64, 0x0#64, 0x0#64, 0x0#64, 0x0#64]

/-- src/roms/rom_bls24_64.rs -/
def bls24_64 : Rom 64 where
  modbytes := 60
  P := ⟨56, 9, 479, 25, 3, .NotSpecial, [0x44C1674A06152B#64, 0xFFE2E82D30DAF8#64, 0x6F1C5CBDB6A642#64, 0x3220DF068A328B#64, 0xE09E1F24406187#64, 0xBA825079733568#64, 0x6E803F2E77E4C1#64, 0x3CCC5BA839AEC#64, 0x555C0078#64], [0x6A4A1FE013DF5B#64, 0xE8E46D4D1BDE65#64, 0x1F841391F45C67#64, 0x9148A4516FB28#64, 0x4398524EDF4C88#64, 0x41C0E241B6DCE8#64, 0xE42C208C19411#64, 0xA7FE6FD73A7B1C#64, 0xFCCCA76#64], 0xBD5D7D8095FE7D#64⟩
  p := 0x555C007803CCC5BA839AEC6E803F2E77E4C1BA825079733568E09E1F244061873220DF068A328B6F1C5CBDB6A642FFE2E82D30DAF844C1674A06152B
  ctype := .weierstrass
  a := 0
  bI := 19
  bv := [0x13#64, 0x0#64, 0x0#64, 0x0#64, 0x0#64, 0x0#64, 0x0#64, 0x0#64, 0x0#64]
  gx := [0x6760F5EBE3CCD4#64, 0xEFE2DAED9F4564#64, 0x783F08EBA1FCC1#64, 0xC6F8D95AF88134#64, 0xDCA8D1AE2D8477#64, 0x9077586CEFE4BF#64, 0x8B7FEA5D99BC1D#64, 0x17CAF9486DE9E1#64, 0x1AB2BE34#64]
  gy := [0xCBA5CAD21E5245#64, 0x6D6608C55DF6C4#64, 0xB3ED294F39746B#64, 0x145824920FF3C8#64, 0x63AA4FD63E5A64#64, 0x492A2BF79CE00F#64, 0x66A7A4529FF79A#64, 0x6C53E477B861CA#64, 0x47FCB70C#64]
  order := [0x1A08FFF0000001#64, 0x1E7033FF551190#64, 0x6ADE7EE322DDAF#64, 0x848FC9D0CED13A#64, 0x50D81729CC224#64, 0x1F0F05B98BB44A#64, 0x10010010005A0#64, 0x0#64, 0x0#64]
  cofI := 0
  cof := [0xC1FFBFF9F415AB#64, 0x5556AAB7FF#64, 0x0#64, 0x0#64, 0x0#64, 0x0#64, 0x0#64, 0x0#64, 0x0#64]

/-- src/roms/rom_bls381_64.rs -/
def bls381_64 : Rom 64 where
  modbytes := 48
  P := ⟨58, 7, 381, 25, 3, .NotSpecial, [0x1FEFFFFFFFFAAAB#64, 0x2FFFFAC54FFFFEE#64, 0x12A0F6B0F6241EA#64, 0x213CE144AFD9CC3#64, 0x2434BACD764774B#64, 0x25FF9A692C6E9ED#64, 0x1A0111EA3#64], [0x20639A1D5BEF7AE#64, 0x1244C6462DD93E8#64, 0x22D09B54E6E2CD2#64, 0x111C4B63170E5DB#64, 0x38A6DE8FB366399#64, 0x4F16CFED1F9CBC#64, 0x19EA66A2B#64], 0x1F3FFFCFFFCFFFD#64⟩
  p := 0x1A0111EA397FE69A4B1BA7B6434BACD764774B84F38512BF6730D2A0F6B0F6241EABFFFEB153FFFFB9FEFFFFFFFFAAAB
  ctype := .weierstrass
  a := 0
  bI := 4
  bv := [0x4#64, 0x0#64, 0x0#64, 0x0#64, 0x0#64, 0x0#64, 0x0#64]
  gx := [0x33AF00ADB22C6BB#64, 0x17A0FFE5E86BBFE#64, 0x3A3F171BAC586C5#64, 0x13E5DD2E4168538#64, 0x4FA9AC0FC3688C#64, 0x65F5E509A558E3#64, 0x17F1D3A73#64]
  gy := [0xAA232946C5E7E1#64, 0x331D128A222B903#64, 0x18CB2C04B3EDD03#64, 0x25757402BD8036C#64, 0x1741D8AE4FCF5E0#64, 0xEAA83C68278C3B#64, 0x8B3F481E#64]
  order := [0x3FFFFFF00000001#64, 0x36900BFFF96FFBF#64, 0x180809A1D80553B#64, 0x14CA675F520CCE7#64, 0x73EDA7#64, 0x0#64, 0x0#64]
  cofI := 0
  cof := [0xAAAB0000AAAB#64, 0x3230015557855A3#64, 0x396#64, 0x0#64, 0x0#64, 0x0#64, 0x0#64]

/-- src/roms/rom_bls383_64.rs -/
def bls383_64 : Rom 64 where
  modbytes := 48
  P := ⟨58, 7, 383, 23, 3, .NotSpecial, [0x2371D6485AAB0AB#64, 0x30FCA6299214AF6#64, 0x3801696124F47A8#64, 0xB3CD969446B0C6#64, 0x1FEA9284A0AD46#64, 0x12ADBAD681B6B71#64, 0x556556956#64], [0x80B6E0116907F4#64, 0xCF53CF9752AC11#64, 0x35D47189941C581#64, 0x19D0835CB1E4D22#64, 0x16963E90A0FC49B#64, 0x367FB9DB3852312#64, 0x4DFECE397#64], 0x1BC0571073435FD#64⟩
  p := 0x5565569564AB6EB5A06DADC41FEA9284A0AD462CF365A511AC31B801696124F47A8C3F298A64852BDA371D6485AAB0AB
  ctype := .weierstrass
  a := 0
  bI := 15
  bv := [0xF#64, 0x0#64, 0x0#64, 0x0#64, 0x0#64, 0x0#64, 0x0#64]
  gx := [0xC4773908734573#64, 0x176FC20FD1DC11E#64, 0x3AD84AF1E3445C5#64, 0x1DAC207D0B0BE1E#64, 0x52DDB050F31D9F#64, 0x25E7B3938E0D7D0#64, 0x41FCBA55B#64]
  gy := [0x12D165E8003F224#64, 0x1F527B21FE63F48#64, 0xA94ADEB4D2DDE5#64, 0x319AED912441D4C#64, 0x1C31C46D99D0DAD#64, 0x133ECC00092BA73#64, 0x68F16727#64]
  order := [0x32099EBFEBC0001#64, 0x17C25684834E5CE#64, 0x1C81698B381DE0#64, 0x2003002E0270110#64, 0x1002001#64, 0x0#64, 0x0#64]
  cofI := 0
  cof := [0x150556155169EAB#64, 0x2AAB0002AAEFFED#64, 0x555#64, 0x0#64, 0x0#64, 0x0#64, 0x0#64]

/-- src/roms/rom_bls461_64.rs -/
def bls461_64 : Rom 64 where
  modbytes := 58
  P := ⟨60, 8, 461, 19, 3, .NotSpecial, [0xAAC0000AAAAAAAB#64, 0x20000555554AAAA#64, 0x6AA91557F004000#64, 0xA8DFFA5C1CC00F2#64, 0xACCA47B14848B42#64, 0x935FBD6F1E32D8B#64, 0xD5A555A55D69414#64, 0x15555545554#64], [0x96D08774614DDA8#64, 0xCD45F539225D5BD#64, 0xD712EB760C95AB1#64, 0xB3B687155F30B55#64, 0xC4E62A05C3F5B81#64, 0xBA1151676CA3CD0#64, 0x7EDD8A958F442BE#64, 0x12B89DD3F91#64], 0xC0005FFFFFFFD#64⟩
  p := 0x15555545554D5A555A55D69414935FBD6F1E32D8BACCA47B14848B42A8DFFA5C1CC00F26AA91557F00400020000555554AAAAAAC0000AAAAAAAB
  ctype := .weierstrass
  a := 0
  bI := 9
  bv := [0x9#64, 0x0#64, 0x0#64, 0x0#64, 0x0#64, 0x0#64, 0x0#64, 0x0#64]
  gx := [0x14D026A8ADEE93D#64, 0xF2D9C00EE74B741#64, 0x229C3981B531AC7#64, 0x6650D3564DC9218#64, 0x436166F7C292A09#64, 0x2CF668BE922B197#64, 0x463B73A0C813271#64, 0xAD0E74E99B#64]
  gy := [0xF763157AD1D465#64, 0x5D17884C8C4FF47#64, 0x9D0A819E66B8D21#64, 0x910AE5C3245F495#64, 0x96EECB8BFA40B84#64, 0x277ACC8BF9F8CBE#64, 0x5F68C95F1C3F2F#64, 0x77BCDB14B3#64]
  order := [0x1#64, 0x7FEFFFEFFFFC0#64, 0xC017FFC80001100#64, 0x7FE05FD000E801F#64, 0xFFFF7FFFC018001#64, 0xFF#64, 0x0#64, 0x0#64]
  cofI := 0
  cof := [0xAA7FFFEAAAAAAAB#64, 0xFFD55AAAB01556A#64, 0x1555554FF#64, 0x0#64, 0x0#64, 0x0#64, 0x0#64, 0x0#64]

/-- src/roms/rom_bls48_64.rs -/
def bls48_64 : Rom 64 where
  modbytes := 70
  P := ⟨58, 10, 556, 24, 3, .NotSpecial, [0x2F6E60FFCF6AC0B#64, 0x259C02699877E7B#64, 0x37A9870D4228402#64, 0x80821A1DACBB04#64, 0x13016A7C025A415#64, 0x2BB355ACDE6E250#64, 0x20536F405DA950#64, 0x295B219C54AB351#64, 0x3FCFC5B23729047#64, 0x3F45F610B#64], [0x25E03FA0D59D0FA#64, 0x6B55DC2DE8FD41#64, 0xA0E01D0B937F48#64, 0x20336279F50EFCE#64, 0x2212822A3470A2F#64, 0xD5A21C4F9FB72D#64, 0x89E8F0A1CFD9F8#64, 0x2291DA62B48793#64, 0x3DC6978EF609E61#64, 0x1735D29E#64], 0x21BFCBCA9DA805D#64⟩
  p := 0xFD17D842FFCFC5B23729047A56C867152ACD4420536F405DA950AECD56B379B89413016A7C025A415202086876B2EC137A9870D4228402967009A661DF9EEF6E60FFCF6AC0B
  ctype := .weierstrass
  a := 0
  bI := 17
  bv := [0x11#64, 0x0#64, 0x0#64, 0x0#64, 0x0#64, 0x0#64, 0x0#64, 0x0#64, 0x0#64, 0x0#64]
  gx := [0x3286D2F65D71D33#64, 0x3601553F8CB783F#64, 0xFF01647711EE0B#64, 0x268BC07F29FD8CC#64, 0xE0702E69A80F66#64, 0x285003EAC056511#64, 0x35E130D242B2C3A#64, 0x107024C87924166#64, 0x17595DB8957EDD7#64, 0x26A27A4A1#64]
  gy := [0x29A5B3FEA6ED83A#64, 0x3712E552A29C33D#64, 0x3391EA8E6958677#64, 0x29F3C7B9DED7E3E#64, 0x4E2E3818FB7229#64, 0x1CC30999551E32D#64, 0xE67A4086260E3C#64, 0x2A68CCB8579C437#64, 0x62C5FAE2B3349D#64, 0x2B634253#64]
  order := [0x2FFFF0000000001#64, 0x11550278A769C21#64, 0x14D1EB162029C21#64, 0x2309B4A2B6307F4#64, 0x34790BD26DFED78#64, 0x2C6FE3F2571037B#64, 0x1306A973C465FB0#64, 0x28446ABB18DF17A#64, 0xC43BF73E#64, 0x0#64]
  cofI := 0
  cof := [0xA2D10F7F12ABEB#64, 0x5#64, 0x0#64, 0x0#64, 0x0#64, 0x0#64, 0x0#64, 0x0#64, 0x0#64, 0x0#64]

/-- src/roms/rom_bn254_64.rs -/
def bn254_64 : Rom 64 where
  modbytes := 32
  P := ⟨56, 5, 254, 26, 3, .NotSpecial, [0x13#64, 0x13A7#64, 0x80000000086121#64, 0x40000001BA344D#64, 0x25236482#64], [0x2F2A96FF5E7E39#64, 0x64E8642B96F13C#64, 0x9926F7B00C7146#64, 0x8321E7B4DACD24#64, 0x1D127A2E#64], 0x435E50D79435E5#64⟩
  p := 0x2523648240000001BA344D80000000086121000000000013A700000000000013
  ctype := .weierstrass
  a := 0
  bI := 2
  bv := [0x2#64, 0x0#64, 0x0#64, 0x0#64, 0x0#64]
  gx := [0x12#64, 0x13A7#64, 0x80000000086121#64, 0x40000001BA344D#64, 0x25236482#64]
  gy := [0x1#64, 0x0#64, 0x0#64, 0x0#64, 0x0#64]
  order := [0xD#64, 0x800000000010A1#64, 0x8000000007FF9F#64, 0x40000001BA344D#64, 0x25236482#64]
  cofI := 1
  cof := [0x1#64, 0x0#64, 0x0#64, 0x0#64, 0x0#64]

/-- src/roms/rom_bn254cx_64.rs -/
def bn254cx_64 : Rom 64 where
  modbytes := 32
  P := ⟨56, 5, 254, 26, 3, .NotSpecial, [0x6623EF5C1B55B3#64, 0xD6EE18093EE1BE#64, 0x647A6366D3243F#64, 0x8702A0DB0BDDF#64, 0x24000000#64], [0x466A0618A0800A#64, 0x2B3A22543056A3#64, 0x148515B09C6600#64, 0xEC9EA5606BDF50#64, 0x1C992E66#64], 0x4E205BF9789E85#64⟩
  p := 0x2400000008702A0DB0BDDF647A6366D3243FD6EE18093EE1BE6623EF5C1B55B3
  ctype := .weierstrass
  a := 0
  bI := 2
  bv := [0x2#64, 0x0#64, 0x0#64, 0x0#64, 0x0#64]
  gx := [0x6623EF5C1B55B2#64, 0xD6EE18093EE1BE#64, 0x647A6366D3243F#64, 0x8702A0DB0BDDF#64, 0x24000000#64]
  gy := [0x1#64, 0x0#64, 0x0#64, 0x0#64, 0x0#64]
  order := [0x11C0A636EB1F6D#64, 0xD6EE0CC906CEBE#64, 0x647A6366D2C43F#64, 0x8702A0DB0BDDF#64, 0x24000000#64]
  cofI := 1
  cof := [0x1#64, 0x0#64, 0x0#64, 0x0#64, 0x0#64]

/-- src/roms/rom_brainpool_64.rs -/
def brainpool_64 : Rom 64 where
  modbytes := 32
  P := ⟨56, 5, 256, 24, 7, .NotSpecial, [0x13481D1F6E5377#64, 0xF623D526202820#64, 0x909D838D726E3B#64, 0xA1EEA9BC3E660A#64, 0xA9FB57DB#64], [0x9E04F49B9A3787#64, 0x29317218F3CF49#64, 0x54E8C3CF1DBC89#64, 0xBB411A3F7559CA#64, 0x9773E15F#64], 0xA75590CEFD89B9#64⟩
  p := 0xA9FB57DBA1EEA9BC3E660A909D838D726E3BF623D52620282013481D1F6E5377
  ctype := .weierstrass
  a := -3
  bI := 0
  bv := [0xE58101FEE92B04#64, 0xEBC4AF2F49256A#64, 0x733D0B76B7BF93#64, 0x30D84EA4FE66A7#64, 0x662C61C4#64]
  gx := [0xA191562E1305F4#64, 0x42C47AAFBC2B79#64, 0xB23A656149AFA1#64, 0xC1CFE7B7732213#64, 0xA3E8EB3C#64]
  gy := [0xABE8F35B25C9BE#64, 0xB6DE39D027001D#64, 0xE14644417E69BC#64, 0x3439C56D7F7B22#64, 0x2D996C82#64]
  order := [0x1E0E82974856A7#64, 0x7AA3B561A6F790#64, 0x909D838D718C39#64, 0xA1EEA9BC3E660A#64, 0xA9FB57DB#64]
  cofI := 1
  cof := [0x1#64, 0x0#64, 0x0#64, 0x0#64, 0x0#64]

/-- src/roms/rom_c25519_64.rs -/
def c25519_64 : Rom 64 where
  modbytes := 32
  P := ⟨56, 5, 255, 25, 5, .PseudoMersenne, [0xFFFFFFFFFFFFED#64, 0xFFFFFFFFFFFFFF#64, 0xFFFFFFFFFFFFFF#64, 0xFFFFFFFFFFFFFF#64, 0x7FFFFFFF#64], [0xA4000000000000#64, 0x5#64, 0x0#64, 0x0#64, 0x0#64], 0x13#64⟩
  p := 0x7FFFFFFFFFFFFFFFFFFFFFFFFFFFFFFFFFFFFFFFFFFFFFFFFFFFFFFFFFFFFFED
  ctype := .montgomery
  a := 486662
  bI := 0
  bv := [0x0#64, 0x0#64, 0x0#64, 0x0#64, 0x0#64]
  gx := [0x9#64, 0x0#64, 0x0#64, 0x0#64, 0x0#64]
  gy := [0x0#64, 0x0#64, 0x0#64, 0x0#64, 0x0#64]
  order := [0x12631A5CF5D3ED#64, 0xF9DEA2F79CD658#64, 0x14DE#64, 0x0#64, 0x10000000#64]
  cofI := 8
  cof := [0x8#64, 0x0#64, 0x0#64, 0x0#64, 0x0#64]

/-- src/roms/rom_c41417_64.rs -/
def c41417_64 : Rom 64 where
  modbytes := 52
  P := ⟨60, 7, 414, 6, 7, .PseudoMersenne, [0xFFFFFFFFFFFFFEF#64, 0xFFFFFFFFFFFFFFF#64, 0xFFFFFFFFFFFFFFF#64, 0xFFFFFFFFFFFFFFF#64, 0xFFFFFFFFFFFFFFF#64, 0xFFFFFFFFFFFFFFF#64, 0x3FFFFFFFFFFFFF#64], [0x121000#64, 0x0#64, 0x0#64, 0x0#64, 0x0#64, 0x0#64, 0x0#64], 0x11#64⟩
  p := 0x3FFFFFFFFFFFFFFFFFFFFFFFFFFFFFFFFFFFFFFFFFFFFFFFFFFFFFFFFFFFFFFFFFFFFFFFFFFFFFFFFFFFFFFFFFFFFFFFFFFFFFEF
  ctype := .edwards
  a := 1
  bI := 3617
  bv := [0xE21#64, 0x0#64, 0x0#64, 0x0#64, 0x0#64, 0x0#64, 0x0#64]
  gx := [0x4FD3812F3CBC595#64, 0x1A73FAA8537C64C#64, 0x4AB4D6D6BA11130#64, 0x3EC7F57FF35498A#64, 0xE5FCD46369F44C0#64, 0x300218C0631C326#64, 0x1A334905141443#64]
  gy := [0x22#64, 0x0#64, 0x0#64, 0x0#64, 0x0#64, 0x0#64, 0x0#64]
  order := [0xB0E71A5E106AF79#64, 0x1C0338AD63CF181#64, 0x414CF706022B36F#64, 0xFFFFFFFFEB3CC92#64, 0xFFFFFFFFFFFFFFF#64, 0xFFFFFFFFFFFFFFF#64, 0x7FFFFFFFFFFFF#64]
  cofI := 8
  cof := [0x8#64, 0x0#64, 0x0#64, 0x0#64, 0x0#64, 0x0#64, 0x0#64]

/-- src/roms/rom_ed25519_64.rs -/
def ed25519_64 : Rom 64 where
  modbytes := 32
  P := ⟨56, 5, 255, 25, 5, .PseudoMersenne, [0xFFFFFFFFFFFFED#64, 0xFFFFFFFFFFFFFF#64, 0xFFFFFFFFFFFFFF#64, 0xFFFFFFFFFFFFFF#64, 0x7FFFFFFF#64], [0xA4000000000000#64, 0x5#64, 0x0#64, 0x0#64, 0x0#64], 0x13#64⟩
  p := 0x7FFFFFFFFFFFFFFFFFFFFFFFFFFFFFFFFFFFFFFFFFFFFFFFFFFFFFFFFFFFFFED
  ctype := .edwards
  a := -1
  bI := 0
  bv := [0xEB4DCA135978A3#64, 0xA4D4141D8AB75#64, 0x797779E8980070#64, 0x2B6FFE738CC740#64, 0x52036CEE#64]
  gx := [0x562D608F25D51A#64, 0xC7609525A7B2C9#64, 0x31FDD6DC5C692C#64, 0xCD6E53FEC0A4E2#64, 0x216936D3#64]
  gy := [0x66666666666658#64, 0x66666666666666#64, 0x66666666666666#64, 0x66666666666666#64, 0x66666666#64]
  order := [0x12631A5CF5D3ED#64, 0xF9DEA2F79CD658#64, 0x14DE#64, 0x0#64, 0x10000000#64]
  cofI := 8
  cof := [0x8#64, 0x0#64, 0x0#64, 0x0#64, 0x0#64]

/-- src/roms/rom_fp256bn_64.rs -/
def fp256bn_64 : Rom 64 where
  modbytes := 32
  P := ⟨56, 5, 256, 24, 3, .NotSpecial, [0x292DDBAED33013#64, 0x65FB12980A82D3#64, 0x5EEE71A49F0CDC#64, 0xFFFCF0CD46E5F2#64, 0xFFFFFFFF#64], [0xEDE336303B9F8B#64, 0x92FFEE9FEC54E8#64, 0x13C1C063C55F79#64, 0xA12F2EAC0123FA#64, 0x8E559B2A#64], 0x6C964E0537E5E5#64⟩
  p := 0xFFFFFFFFFFFCF0CD46E5F25EEE71A49F0CDC65FB12980A82D3292DDBAED33013
  ctype := .weierstrass
  a := 0
  bI := 3
  bv := [0x3#64, 0x0#64, 0x0#64, 0x0#64, 0x0#64]
  gx := [0x1#64, 0x0#64, 0x0#64, 0x0#64, 0x0#64]
  gy := [0x2#64, 0x0#64, 0x0#64, 0x0#64, 0x0#64]
  order := [0x2D536CD10B500D#64, 0x65FB1299921AF6#64, 0x5EEE71A49E0CDC#64, 0xFFFCF0CD46E5F2#64, 0xFFFFFFFF#64]
  cofI := 1
  cof := [0x1#64, 0x0#64, 0x0#64, 0x0#64, 0x0#64]

/-- src/roms/rom_fp512bn_64.rs -/
def fp512bn_64 : Rom 64 where
  modbytes := 64
  P := ⟨60, 9, 512, 28, 3, .NotSpecial, [0x4EB280922ADEF33#64, 0x6A55CE5F4C6467B#64, 0xC65DEAB236FE191#64, 0xCF1EACBE98B8E48#64, 0x3C111B0EF455146#64, 0xA1D8CB5307C0BBE#64, 0xFFFF9EC7F01C60B#64, 0xFFFFFFFFFFFFFFF#64, 0xFFFFFFFF#64], [0x1FA6DCEF99812E9#64, 0xAB3452895A0B74E#64, 0xC53EA988C079E1E#64, 0x1E90E033BA630B9#64, 0xF1EA41C0714D8B0#64, 0xE72785387509E28#64, 0xD86794F834DAB00#64, 0x9757C2ACCD342A1#64, 0x44ECB079#64], 0x692A189FCCC5C05#64⟩
  p := 0xFFFFFFFFFFFFFFFFFFFFFFFFFFF9EC7F01C60BA1D8CB5307C0BBE3C111B0EF455146CF1EACBE98B8E48C65DEAB236FE1916A55CE5F4C6467B4EB280922ADEF33
  ctype := .weierstrass
  a := 0
  bI := 3
  bv := [0x3#64, 0x0#64, 0x0#64, 0x0#64, 0x0#64, 0x0#64, 0x0#64, 0x0#64, 0x0#64]
  gx := [0x1#64, 0x0#64, 0x0#64, 0x0#64, 0x0#64, 0x0#64, 0x0#64, 0x0#64, 0x0#64]
  gy := [0x2#64, 0x0#64, 0x0#64, 0x0#64, 0x0#64, 0x0#64, 0x0#64, 0x0#64, 0x0#64]
  order := [0x6A64A5F519A09ED#64, 0x10313E04F9A2B40#64, 0xC65DEAB2679A34A#64, 0xCF1EACBE98B8E48#64, 0x3C111B0EF445146#64, 0xA1D8CB5307C0BBE#64, 0xFFFF9EC7F01C60B#64, 0xFFFFFFFFFFFFFFF#64, 0xFFFFFFFF#64]
  cofI := 1
  cof := [0x1#64, 0x0#64, 0x0#64, 0x0#64, 0x0#64, 0x0#64, 0x0#64, 0x0#64, 0x0#64]

/-- src/roms/rom_goldilocks_64.rs -/
def goldilocks_64 : Rom 64 where
  modbytes := 56
  P := ⟨58, 8, 448, 16, 7, .GeneralisedMersenne, [0x3FFFFFFFFFFFFFF#64, 0x3FFFFFFFFFFFFFF#64, 0x3FFFFFFFFFFFFFF#64, 0x3FBFFFFFFFFFFFF#64, 0x3FFFFFFFFFFFFFF#64, 0x3FFFFFFFFFFFFFF#64, 0x3FFFFFFFFFFFFFF#64, 0x3FFFFFFFFFF#64], [0x200000000#64, 0x0#64, 0x0#64, 0x0#64, 0x3000000#64, 0x0#64, 0x0#64, 0x0#64], 0x1#64⟩
  p := 0xFFFFFFFFFFFFFFFFFFFFFFFFFFFFFFFFFFFFFFFFFFFFFFFFFFFFFFFEFFFFFFFFFFFFFFFFFFFFFFFFFFFFFFFFFFFFFFFFFFFFFFFFFFFFFFFF
  ctype := .edwards
  a := 1
  bI := -39081
  bv := [0x3FFFFFFFFFF6756#64, 0x3FFFFFFFFFFFFFF#64, 0x3FFFFFFFFFFFFFF#64, 0x3FBFFFFFFFFFFFF#64, 0x3FFFFFFFFFFFFFF#64, 0x3FFFFFFFFFFFFFF#64, 0x3FFFFFFFFFFFFFF#64, 0x3FFFFFFFFFF#64]
  gx := [0x155555555555555#64, 0x155555555555555#64, 0x155555555555555#64, 0x2A5555555555555#64, 0x2AAAAAAAAAAAAAA#64, 0x2AAAAAAAAAAAAAA#64, 0x2AAAAAAAAAAAAAA#64, 0x2AAAAAAAAAA#64]
  gy := [0x2EAFBCDEA9386ED#64, 0x32CAFB473681AF6#64, 0x25833A2A3098BBB#64, 0x1CA2B6312E03595#64, 0x35884DD7B7E36D#64, 0x21B0AC00DBB5E8#64, 0x17048DB359D6205#64, 0x2B817A58D2B#64]
  order := [0x378C292AB5844F3#64, 0x3309CA37163D548#64, 0x1B49AED63690216#64, 0x3FDF3288FA7113B#64, 0x3FFFFFFFFFFFFFF#64, 0x3FFFFFFFFFFFFFF#64, 0x3FFFFFFFFFFFFFF#64, 0xFFFFFFFFFF#64]
  cofI := 4
  cof := [0x4#64, 0x0#64, 0x0#64, 0x0#64, 0x0#64, 0x0#64, 0x0#64, 0x0#64]

/-- src/roms/rom_hifive_64.rs -/
def hifive_64 : Rom 64 where
  modbytes := 42
  P := ⟨60, 6, 336, 24, 5, .PseudoMersenne, [0xFFFFFFFFFFFFFFD#64, 0xFFFFFFFFFFFFFFF#64, 0xFFFFFFFFFFFFFFF#64, 0xFFFFFFFFFFFFFFF#64, 0xFFFFFFFFFFFFFFF#64, 0xFFFFFFFFF#64], [0x9000000000000#64, 0x0#64, 0x0#64, 0x0#64, 0x0#64, 0x0#64], 0x3#64⟩
  p := 0xFFFFFFFFFFFFFFFFFFFFFFFFFFFFFFFFFFFFFFFFFFFFFFFFFFFFFFFFFFFFFFFFFFFFFFFFFFFFFFFFFFFD
  ctype := .edwards
  a := 1
  bI := 11111
  bv := [0x2B67#64, 0x0#64, 0x0#64, 0x0#64, 0x0#64, 0x0#64]
  gx := [0xC#64, 0x0#64, 0x0#64, 0x0#64, 0x0#64, 0x0#64]
  gy := [0x2BEC68505FE8632#64, 0x5D5650CA0365DB1#64, 0x3811C7EF435B6DB#64, 0x7853D1B14B46C#64, 0x56502E18E1C161D#64, 0xC0DC616B#64]
  order := [0xB2F95973E9FA805#64, 0xC0BD6B87F93BAA7#64, 0x71415FA9850#64, 0x0#64, 0x0#64, 0x200000000#64]
  cofI := 8
  cof := [0x8#64, 0x0#64, 0x0#64, 0x0#64, 0x0#64, 0x0#64]

/-- src/roms/rom_nist256_64.rs -/
def nist256_64 : Rom 64 where
  modbytes := 32
  P := ⟨56, 5, 256, 24, 7, .NotSpecial, [0xFFFFFFFFFFFFFF#64, 0xFFFFFFFFFF#64, 0x0#64, 0x1000000#64, 0xFFFFFFFF#64], [0x3000000050000#64, 0x0#64, 0xFFFFFBFFFFFFFA#64, 0xFFFAFFFFFFFEFF#64, 0x2FFFF#64], 0x1#64⟩
  p := 0xFFFFFFFF00000001000000000000000000000000FFFFFFFFFFFFFFFFFFFFFFFF
  ctype := .weierstrass
  a := -3
  bI := 0
  bv := [0xCE3C3E27D2604B#64, 0x6B0CC53B0F63B#64, 0x55769886BC651D#64, 0xAA3A93E7B3EBBD#64, 0x5AC635D8#64]
  gx := [0xA13945D898C296#64, 0x7D812DEB33A0F4#64, 0xE563A440F27703#64, 0xE12C4247F8BCE6#64, 0x6B17D1F2#64]
  gy := [0xB6406837BF51F5#64, 0x33576B315ECECB#64, 0x4A7C0F9E162BCE#64, 0xFE1A7F9B8EE7EB#64, 0x4FE342E2#64]
  order := [0xB9CAC2FC632551#64, 0xFAADA7179E84F3#64, 0xFFFFFFFFFFBCE6#64, 0xFFFFFF#64, 0xFFFFFFFF#64]
  cofI := 1
  cof := [0x1#64, 0x0#64, 0x0#64, 0x0#64, 0x0#64]

/-- src/roms/rom_nist384_64.rs -/
def nist384_64 : Rom 64 where
  modbytes := 48
  P := ⟨56, 7, 384, 8, 7, .NotSpecial, [0xFFFFFFFF#64, 0xFFFF0000000000#64, 0xFFFFFFFFFEFFFF#64, 0xFFFFFFFFFFFFFF#64, 0xFFFFFFFFFFFFFF#64, 0xFFFFFFFFFFFFFF#64, 0xFFFFFFFFFFFF#64], [0xFE000000010000#64, 0xFFFFFF#64, 0x2#64, 0xFFFFFFFE00#64, 0x1000000020000#64, 0x0#64, 0x0#64], 0x100000001#64⟩
  p := 0xFFFFFFFFFFFFFFFFFFFFFFFFFFFFFFFFFFFFFFFFFFFFFFFFFFFFFFFFFFFFFFFEFFFFFFFF0000000000000000FFFFFFFF
  ctype := .weierstrass
  a := -3
  bI := 0
  bv := [0x85C8EDD3EC2AEF#64, 0x398D8A2ED19D2A#64, 0x8F5013875AC656#64, 0xFE814112031408#64, 0xF82D19181D9C6E#64, 0xE7E4988E056BE3#64, 0xB3312FA7E23E#64]
  gx := [0x545E3872760AB7#64, 0xF25DBF55296C3A#64, 0xE082542A385502#64, 0x8BA79B9859F741#64, 0x20AD746E1D3B62#64, 0x5378EB1C71EF3#64, 0xAA87CA22BE8B#64]
  gy := [0x431D7C90EA0E5F#64, 0xB1CE1D7E819D7A#64, 0x13B5F0B8C00A60#64, 0x289A147CE9DA31#64, 0x92DC29F8F41DBD#64, 0x2C6F5D9E98BF92#64, 0x3617DE4A9626#64]
  order := [0xEC196ACCC52973#64, 0xDB248B0A77AEC#64, 0x81F4372DDF581A#64, 0xFFFFFFFFC7634D#64, 0xFFFFFFFFFFFFFF#64, 0xFFFFFFFFFFFFFF#64, 0xFFFFFFFFFFFF#64]
  cofI := 1
  cof := [0x1#64, 0x0#64, 0x0#64, 0x0#64, 0x0#64, 0x0#64, 0x0#64]

/-- src/roms/rom_nist521_64.rs -/
def nist521_64 : Rom 64 where
  modbytes := 66
  P := ⟨60, 9, 521, 19, 7, .PseudoMersenne, [0xFFFFFFFFFFFFFFF#64, 0xFFFFFFFFFFFFFFF#64, 0xFFFFFFFFFFFFFFF#64, 0xFFFFFFFFFFFFFFF#64, 0xFFFFFFFFFFFFFFF#64, 0xFFFFFFFFFFFFFFF#64, 0xFFFFFFFFFFFFFFF#64, 0xFFFFFFFFFFFFFFF#64, 0x1FFFFFFFFFF#64], [0x4000000000#64, 0x0#64, 0x0#64, 0x0#64, 0x0#64, 0x0#64, 0x0#64, 0x0#64, 0x0#64], 0x1#64⟩
  p := 0x1FFFFFFFFFFFFFFFFFFFFFFFFFFFFFFFFFFFFFFFFFFFFFFFFFFFFFFFFFFFFFFFFFFFFFFFFFFFFFFFFFFFFFFFFFFFFFFFFFFFFFFFFFFFFFFFFFFFFFFFFFFFFFFFFFF
  ctype := .weierstrass
  a := -3
  bI := 0
  bv := [0xF451FD46B503F00#64, 0x73DF883D2C34F1E#64, 0x2C0BD3BB1BF0735#64, 0x3951EC7E937B165#64, 0x9918EF109E15619#64, 0x5B99B315F3B8B48#64, 0xB68540EEA2DA72#64, 0x8E1C9A1F929A21A#64, 0x51953EB961#64]
  gx := [0x97E7E31C2E5BD66#64, 0x48B3C1856A429BF#64, 0xDC127A2FFA8DE33#64, 0x5E77EFE75928FE1#64, 0xF606B4D3DBAA14B#64, 0x39053FB521F828A#64, 0x62395B4429C6481#64, 0x404E9CD9E3ECB6#64, 0xC6858E06B7#64]
  gy := [0x8BE94769FD16650#64, 0x3C7086A272C2408#64, 0xB9013FAD076135#64, 0x72995EF42640C55#64, 0xD17273E662C97EE#64, 0x49579B446817AFB#64, 0x42C7D1BD998F544#64, 0x9A3BC0045C8A5FB#64, 0x11839296A78#64]
  order := [0xB6FB71E91386409#64, 0xB5C9B8899C47AEB#64, 0xC0148F709A5D03B#64, 0x8783BF2F966B7FC#64, 0xFFFFFFFFFFA5186#64, 0xFFFFFFFFFFFFFFF#64, 0xFFFFFFFFFFFFFFF#64, 0xFFFFFFFFFFFFFFF#64, 0x1FFFFFFFFFF#64]
  cofI := 1
  cof := [0x1#64, 0x0#64, 0x0#64, 0x0#64, 0x0#64, 0x0#64, 0x0#64, 0x0#64, 0x0#64]

/-- src/roms/rom_nums256e_64.rs -/
def nums256e_64 : Rom 64 where
  modbytes := 32
  P := ⟨56, 5, 256, 24, 3, .PseudoMersenne, [0xFFFFFFFFFFFF43#64, 0xFFFFFFFFFFFFFF#64, 0xFFFFFFFFFFFFFF#64, 0xFFFFFFFFFFFFFF#64, 0xFFFFFFFF#64], [0x89000000000000#64, 0x8B#64, 0x0#64, 0x0#64, 0x0#64], 0xBD#64⟩
  p := 0xFFFFFFFFFFFFFFFFFFFFFFFFFFFFFFFFFFFFFFFFFFFFFFFFFFFFFFFFFFFFFF43
  ctype := .edwards
  a := 1
  bI := -15342
  bv := [0xFFFFFFFFFFC355#64, 0xFFFFFFFFFFFFFF#64, 0xFFFFFFFFFFFFFF#64, 0xFFFFFFFFFFFFFF#64, 0xFFFFFFFF#64]
  gx := [0xDEC0902EED13DA#64, 0x8A0EE3083586A0#64, 0x5F69209BD60C39#64, 0x6AEA237DCD1E3D#64, 0x8A7514FB#64]
  gy := [0xA616E7798A89E6#64, 0x61D810856ED32F#64, 0xD9A64B8010715F#64, 0xD9D925C7CE9665#64, 0x44D53E9F#64]
  order := [0x47B190EEDD4AF5#64, 0x5AA52F59439B1A#64, 0x4195#64, 0x0#64, 0x40000000#64]
  cofI := 4
  cof := [0x4#64, 0x0#64, 0x0#64, 0x0#64, 0x0#64]

/-- src/roms/rom_nums256w_64.rs -/
def nums256w_64 : Rom 64 where
  modbytes := 32
  P := ⟨56, 5, 256, 24, 3, .PseudoMersenne, [0xFFFFFFFFFFFF43#64, 0xFFFFFFFFFFFFFF#64, 0xFFFFFFFFFFFFFF#64, 0xFFFFFFFFFFFFFF#64, 0xFFFFFFFF#64], [0x89000000000000#64, 0x8B#64, 0x0#64, 0x0#64, 0x0#64], 0xBD#64⟩
  p := 0xFFFFFFFFFFFFFFFFFFFFFFFFFFFFFFFFFFFFFFFFFFFFFFFFFFFFFFFFFFFFFF43
  ctype := .weierstrass
  a := -3
  bI := 152961
  bv := [0x25581#64, 0x0#64, 0x0#64, 0x0#64, 0x0#64]
  gx := [0x52EE1EB21AACB1#64, 0x9B0903D4C73ABC#64, 0xA04F42CB098357#64, 0x5AAADB61297A95#64, 0xBC9ED6B6#64]
  gy := [0xB5B9CB2184DE9F#64, 0xC3D115310FBB80#64, 0xF77E04E035C955#64, 0x3399B6A673448B#64, 0xD08FC0F1#64]
  order := [0xAB20294751A825#64, 0x8275EA265C6020#64, 0xFFFFFFFFFFE43C#64, 0xFFFFFFFFFFFFFF#64, 0xFFFFFFFF#64]
  cofI := 1
  cof := [0x1#64, 0x0#64, 0x0#64, 0x0#64, 0x0#64]

/-- src/roms/rom_nums384e_64.rs -/
def nums384e_64 : Rom 64 where
  modbytes := 48
  P := ⟨56, 7, 384, 8, 3, .PseudoMersenne, [0xFFFFFFFFFFFEC3#64, 0xFFFFFFFFFFFFFF#64, 0xFFFFFFFFFFFFFF#64, 0xFFFFFFFFFFFFFF#64, 0xFFFFFFFFFFFFFF#64, 0xFFFFFFFFFFFFFF#64, 0xFFFFFFFFFFFF#64], [0x188890000#64, 0x0#64, 0x0#64, 0x0#64, 0x0#64, 0x0#64, 0x0#64], 0x13D#64⟩
  p := 0xFFFFFFFFFFFFFFFFFFFFFFFFFFFFFFFFFFFFFFFFFFFFFFFFFFFFFFFFFFFFFFFFFFFFFFFFFFFFFFFFFFFFFFFFFFFFFEC3
  ctype := .edwards
  a := 1
  bI := -11556
  bv := [0xFFFFFFFFFFD19F#64, 0xFFFFFFFFFFFFFF#64, 0xFFFFFFFFFFFFFF#64, 0xFFFFFFFFFFFFFF#64, 0xFFFFFFFFFFFFFF#64, 0xFFFFFFFFFFFFFF#64, 0xFFFFFFFFFFFF#64]
  gx := [0xD540E46C206BDE#64, 0x92B16545941350#64, 0xA8F33163406FF2#64, 0xE5BE4C005763FF#64, 0xE55DB5B30BF446#64, 0x266CC0B6A2129A#64, 0x61B111FB45A9#64]
  gy := [0x8D03E1F0729392#64, 0xB0F946EC48DC9D#64, 0xF7F645964B0072#64, 0xF1425F56830F98#64, 0xB10DD716AD8274#64, 0xEEB08738B1A423#64, 0x82983E67B9A6#64]
  order := [0xB9DCC4E6A3897D#64, 0x555AAB35C87920#64, 0x1CB46BE1CF61E4#64, 0xFFFFFFFFE2471A#64, 0xFFFFFFFFFFFFFF#64, 0xFFFFFFFFFFFFFF#64, 0x3FFFFFFFFFFF#64]
  cofI := 4
  cof := [0x4#64, 0x0#64, 0x0#64, 0x0#64, 0x0#64, 0x0#64, 0x0#64]

/-- src/roms/rom_nums384w_64.rs -/
def nums384w_64 : Rom 64 where
  modbytes := 48
  P := ⟨58, 7, 384, 22, 3, .PseudoMersenne, [0x3FFFFFFFFFFFEC3#64, 0x3FFFFFFFFFFFFFF#64, 0x3FFFFFFFFFFFFFF#64, 0x3FFFFFFFFFFFFFF#64, 0x3FFFFFFFFFFFFFF#64, 0x3FFFFFFFFFFFFFF#64, 0xFFFFFFFFF#64], [0x88900000000000#64, 0x6#64, 0x0#64, 0x0#64, 0x0#64, 0x0#64, 0x0#64], 0x13D#64⟩
  p := 0xFFFFFFFFFFFFFFFFFFFFFFFFFFFFFFFFFFFFFFFFFFFFFFFFFFFFFFFFFFFFFFFFFFFFFFFFFFFFFFFFFFFFFFFFFFFFFEC3
  ctype := .weierstrass
  a := -3
  bI := -34568
  bv := [0x3FFFFFFFFFF77BB#64, 0x3FFFFFFFFFFFFFF#64, 0x3FFFFFFFFFFFFFF#64, 0x3FFFFFFFFFFFFFF#64, 0x3FFFFFFFFFFFFFF#64, 0x3FFFFFFFFFFFFFF#64, 0xFFFFFFFFF#64]
  gx := [0x39CBA042098152A#64, 0x3BB4403D8711EFA#64, 0x291B2A6CC742522#64, 0x337EE07E7D3CEF4#64, 0x24105F1A60225C1#64, 0x5BC60712203288#64, 0x757956F0B#64]
  gy := [0x74B8EC66180716#64, 0x1AD36EFFD2B4997#64, 0x37D121A837EBCD#64, 0x1DFE1FDCE72E482#64, 0x584CF7EB00469#64, 0x66E38E35F8CF4C#64, 0xACDEE368E#64]
  order := [0x4D81F67B0E61B9#64, 0x2A74F530DF89E98#64, 0x2F1EEB5D6881BED#64, 0x3FFFFFFFFFF587A#64, 0x3FFFFFFFFFFFFFF#64, 0x3FFFFFFFFFFFFFF#64, 0xFFFFFFFFF#64]
  cofI := 1
  cof := [0x1#64, 0x0#64, 0x0#64, 0x0#64, 0x0#64, 0x0#64, 0x0#64]

/-- src/roms/rom_nums512e_64.rs -/
def nums512e_64 : Rom 64 where
  modbytes := 64
  P := ⟨60, 9, 512, 28, 3, .PseudoMersenne, [0xFFFFFFFFFFFFDC7#64, 0xFFFFFFFFFFFFFFF#64, 0xFFFFFFFFFFFFFFF#64, 0xFFFFFFFFFFFFFFF#64, 0xFFFFFFFFFFFFFFF#64, 0xFFFFFFFFFFFFFFF#64, 0xFFFFFFFFFFFFFFF#64, 0xFFFFFFFFFFFFFFF#64, 0xFFFFFFFF#64], [0x100000000000000#64, 0x4F0B#64, 0x0#64, 0x0#64, 0x0#64, 0x0#64, 0x0#64, 0x0#64, 0x0#64], 0x239#64⟩
  p := 0xFFFFFFFFFFFFFFFFFFFFFFFFFFFFFFFFFFFFFFFFFFFFFFFFFFFFFFFFFFFFFFFFFFFFFFFFFFFFFFFFFFFFFFFFFFFFFFFFFFFFFFFFFFFFFFFFFFFFFFFFFFFFFDC7
  ctype := .edwards
  a := 1
  bI := -78296
  bv := [0xFFFFFFFFFFECBEF#64, 0xFFFFFFFFFFFFFFF#64, 0xFFFFFFFFFFFFFFF#64, 0xFFFFFFFFFFFFFFF#64, 0xFFFFFFFFFFFFFFF#64, 0xFFFFFFFFFFFFFFF#64, 0xFFFFFFFFFFFFFFF#64, 0xFFFFFFFFFFFFFFF#64, 0xFFFFFFFF#64]
  gx := [0x5B9AB2999EC57FE#64, 0xE525427CC4F015C#64, 0xDC992568904AD0F#64, 0xC14EEE46730F78B#64, 0xEBE273B81474621#64, 0x9F4DC4A38227A17#64, 0x888D3C5332FD1E7#64, 0x128DB69C7A18CB7#64, 0xDF8E316D#64]
  gy := [0x26DDEC0C1E2F5E1#64, 0x66D38A9BF1D01F3#64, 0xA06862AECC1FD02#64, 0x53F2E9963562601#64, 0xB95909E834120CA#64, 0x26D8259D22A92B6#64, 0x7A82A256EE476F7#64, 0x9D49CA7198B0F57#64, 0x6D09BFF3#64]
  order := [0x7468CF51BEED46D#64, 0x4605786DEFECFF6#64, 0xFD8C970B686F52A#64, 0x636D2FCF91BA9E3#64, 0xFFFFFFFFFFFB4F0#64, 0xFFFFFFFFFFFFFFF#64, 0xFFFFFFFFFFFFFFF#64, 0xFFFFFFFFFFFFFFF#64, 0x3FFFFFFF#64]
  cofI := 4
  cof := [0x4#64, 0x0#64, 0x0#64, 0x0#64, 0x0#64, 0x0#64, 0x0#64, 0x0#64, 0x0#64]

/-- src/roms/rom_nums512w_64.rs -/
def nums512w_64 : Rom 64 where
  modbytes := 64
  P := ⟨60, 9, 512, 28, 3, .PseudoMersenne, [0xFFFFFFFFFFFFDC7#64, 0xFFFFFFFFFFFFFFF#64, 0xFFFFFFFFFFFFFFF#64, 0xFFFFFFFFFFFFFFF#64, 0xFFFFFFFFFFFFFFF#64, 0xFFFFFFFFFFFFFFF#64, 0xFFFFFFFFFFFFFFF#64, 0xFFFFFFFFFFFFFFF#64, 0xFFFFFFFF#64], [0x100000000000000#64, 0x4F0B#64, 0x0#64, 0x0#64, 0x0#64, 0x0#64, 0x0#64, 0x0#64, 0x0#64], 0x239#64⟩
  p := 0xFFFFFFFFFFFFFFFFFFFFFFFFFFFFFFFFFFFFFFFFFFFFFFFFFFFFFFFFFFFFFFFFFFFFFFFFFFFFFFFFFFFFFFFFFFFFFFFFFFFFFFFFFFFFFFFFFFFFFFFFFFFFFDC7
  ctype := .weierstrass
  a := -3
  bI := 121243
  bv := [0x1D99B#64, 0x0#64, 0x0#64, 0x0#64, 0x0#64, 0x0#64, 0x0#64, 0x0#64, 0x0#64]
  gx := [0xC8287958CABAE57#64, 0x5D60137D6F5DE2D#64, 0x94286255615831D#64, 0xA151076B359E937#64, 0xC25306D9F95021#64, 0x3BB501F6854506E#64, 0x2A03D3B5298CAD8#64, 0x141D0A93DA2B700#64, 0x3AC03447#64]
  gy := [0x3A08760383527A6#64, 0x2B5C1E4CFD0FE92#64, 0x1A840B25A5602CF#64, 0x15DA8B0EEDE9C12#64, 0x60C7BD14F14A284#64, 0xDEABBCBB8C8F4B2#64, 0xC63EBB1004B97DB#64, 0x29AD56B3CE0EEED#64, 0x943A54CA#64]
  order := [0xE153F390433555D#64, 0x568B36607CD243C#64, 0x258ED97D0BDC63B#64, 0xA4FB94E7831B4FC#64, 0xFFFFFFFFFFF5B3C#64, 0xFFFFFFFFFFFFFFF#64, 0xFFFFFFFFFFFFFFF#64, 0xFFFFFFFFFFFFFFF#64, 0xFFFFFFFF#64]
  cofI := 1
  cof := [0x1#64, 0x0#64, 0x0#64, 0x0#64, 0x0#64, 0x0#64, 0x0#64, 0x0#64, 0x0#64]

/-- src/roms/rom_secp256k1_64.rs -/
def secp256k1_64 : Rom 64 where
  modbytes := 32
  P := ⟨56, 5, 256, 24, 7, .NotSpecial, [0xFFFFFEFFFFFC2F#64, 0xFFFFFFFFFFFFFF#64, 0xFFFFFFFFFFFFFF#64, 0xFFFFFFFFFFFFFF#64, 0xFFFFFFFF#64], [0xA1000000000000#64, 0x7A2000E90#64, 0x1#64, 0x0#64, 0x0#64], 0x38091DD2253531#64⟩
  p := 0xFFFFFFFFFFFFFFFFFFFFFFFFFFFFFFFFFFFFFFFFFFFFFFFFFFFFFFFEFFFFFC2F
  ctype := .weierstrass
  a := 0
  bI := 7
  bv := [0x7#64, 0x0#64, 0x0#64, 0x0#64, 0x0#64]
  gx := [0xF2815B16F81798#64, 0xFCDB2DCE28D959#64, 0x95CE870B07029B#64, 0xF9DCBBAC55A062#64, 0x79BE667E#64]
  gy := [0x47D08FFB10D4B8#64, 0xB448A68554199C#64, 0xFC0E1108A8FD17#64, 0x26A3C4655DA4FB#64, 0x483ADA77#64]
  order := [0xD25E8CD0364141#64, 0xDCE6AF48A03BBF#64, 0xFFFFFFFFFEBAAE#64, 0xFFFFFFFFFFFFFF#64, 0xFFFFFFFF#64]
  cofI := 1
  cof := [0x1#64, 0x0#64, 0x0#64, 0x0#64, 0x0#64]

/-- all 64-bit ROM files that define a curve -/
def all64 : List (Rom 64) := [anssi_64, bls24_64, bls381_64, bls383_64, bls461_64, bls48_64, bn254_64, bn254cx_64, brainpool_64, c25519_64, c41417_64, ed25519_64, fp256bn_64, fp512bn_64, goldilocks_64, hifive_64, nist256_64, nist384_64, nist521_64, nums256e_64, nums256w_64, nums384e_64, nums384w_64, nums512e_64, nums512w_64, secp256k1_64]

end Verif.Rom
