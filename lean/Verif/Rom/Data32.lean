import Verif.Rom.Model
/-
The constants of the 32-bit ROM files `src/roms/rom_*_32.rs`, transcribed by a script from the sources.
`p` is not a constant of the ROM file: it is the modulus as an integer, and the theorems check it against
the limbs of `MODULUS`. `rom_fp512bn_32.rs` is missing: see Verif/Props/Rom.lean.
-/
namespace Verif.Rom
open Verif.Fp

/-- src/roms/rom_anssi_32.rs -/
def anssi_32 : Rom 32 where
  modbytes := 32
  P := ⟨28, 10, 256, 14, 7, .NotSpecial, [0x86E9C03#32, 0xFCF353D#32, 0x8CA6DE8#32, 0xADBCABC#32, 0x35B3961#32, 0xE8CE424#32, 0xF10126D#32, 0xB3AD58#32, 0x1FD178C#32, 0xF#32], [0x288CC9C#32, 0x18D2374#32, 0x646BD2B#32, 0x4929E67#32, 0xD6F7F2D#32, 0x220E6C1#32, 0xABCE02E#32, 0x751B1FD#32, 0x7401B78#32, 0xE#32], 0x64E1155#32⟩
  p := 0xF1FD178C0B3AD58F10126DE8CE42435B3961ADBCABC8CA6DE8FCF353D86E9C03
  ctype := .weierstrass
  a := -3
  bI := 0
  bv := [0xB7BB73F#32, 0x75ED967#32, 0x1A18030#32, 0xC9AE4B#32, 0xFDFEC#32, 0x754A44C#32, 0xD4ABA#32, 0x5428A93#32, 0xE353FCA#32, 0xE#32]
  gx := [0x98F5CFF#32, 0xC97A2DD#32, 0x8B70164#32, 0xD2DCAF9#32, 0x3958C27#32, 0x4749D42#32, 0xB31183D#32, 0x56C139E#32, 0x6B3D4C3#32, 0xB#32]
  gy := [0x4062CFB#32, 0x115A155#32, 0x4C9E183#32, 0xC307E8E#32, 0xF8C2701#32, 0xF0F3ECE#32, 0x11F9271#32, 0xC8B2049#32, 0x142E0F7#32, 0x6#32]
  order := [0x6D655E1#32, 0xFDD459C#32, 0x2BF941F#32, 0x67E140D#32, 0x35B53DC#32, 0xE8CE424#32, 0xF10126D#32, 0xB3AD58#32, 0x1FD178C#32, 0xF#32]
  cofI := 1
  cof := [0x1#32, 0x0#32, 0x0#32, 0x0#32, 0x0#32, 0x0#32, 0x0#32, 0x0#32, 0x0#32, 0x0#32]

/-- src/roms/rom_bls24_32.rs -/
def bls24_32 : Rom 32 where
  modbytes := 60
  P := ⟨29, 17, 479, 14, 3, .NotSpecial, [0xA06152B#32, 0x2260B3A#32, 0xB4C36BE#32, 0x5FFC5D0#32, 0xBDB6A64#32, 0x5B78E2E#32, 0x1C1A28CA#32, 0x10E6441B#32, 0x1F244061#32, 0xB4704F0#32, 0x141E5CCD#32, 0x9837504#32, 0x3F2E77E#32, 0xD763740#32, 0x1316EA0E#32, 0xF0079#32, 0x555C#32], [0x8533EA9#32, 0x6A02789#32, 0x183B24DE#32, 0x1E45ECF8#32, 0xC8F8F37#32, 0x10CAD209#32, 0x4C0C4B8#32, 0x9B1FABD#32, 0xDEBE4C0#32, 0xDC353F9#32, 0x18A18E26#32, 0x10F489BB#32, 0x31206A5#32, 0x19673BBF#32, 0x6BE69F9#32, 0xB091169#32, 0x9CD#32], 0x95FE7D#32⟩
  p := 0x555C007803CCC5BA839AEC6E803F2E77E4C1BA825079733568E09E1F244061873220DF068A328B6F1C5CBDB6A642FFE2E82D30DAF844C1674A06152B
  ctype := .weierstrass
  a := 0
  bI := 19
  bv := [0x13#32, 0x0#32, 0x0#32, 0x0#32, 0x0#32, 0x0#32, 0x0#32, 0x0#32, 0x0#32, 0x0#32, 0x0#32, 0x0#32, 0x0#32, 0x0#32, 0x0#32, 0x0#32, 0x0#32]
  gx := [0xBE3CCD4#32, 0x33B07AF#32, 0x1B67D159#32, 0x3DFC5B5#32, 0xEBA1FCC#32, 0x1A3C1F84#32, 0x56BE204#32, 0xEF8DF1B#32, 0x11AE2D84#32, 0x5FEE546#32, 0x161B3BF9#32, 0x183B20EE#32, 0x1EA5D99B#32, 0x14F0C5BF#32, 0xBE521B7#32, 0x17C682F9#32, 0x1AB2#32]
  gy := [0x121E5245#32, 0x65D2E56#32, 0x11577DB1#32, 0x16DACC11#32, 0x14F39746#32, 0x459F694#32, 0x12483FCF#32, 0xC828B04#32, 0xFD63E5A#32, 0x7B1D52#32, 0xAFDE738#32, 0xF349254#32, 0x1A4529FF#32, 0x10E53353#32, 0xF91DEE1#32, 0x16E18D8A#32, 0x47FC#32]
  order := [0x10000001#32, 0xD047FF#32, 0x1FD54464#32, 0x1E3CE067#32, 0xE322DDA#32, 0x1D356F3F#32, 0x7433B44#32, 0x49091F9#32, 0x1729CC2#32, 0x250286C#32, 0x16E62ED#32, 0xB403E1E#32, 0x1001000#32, 0x80#32, 0x0#32, 0x0#32, 0x0#32]
  cofI := 0
  cof := [0x19F415AB#32, 0x1E0FFDFF#32, 0x15AAADFF#32, 0xAA#32, 0x0#32, 0x0#32, 0x0#32, 0x0#32, 0x0#32, 0x0#32, 0x0#32, 0x0#32, 0x0#32, 0x0#32, 0x0#32, 0x0#32, 0x0#32]

/-- src/roms/rom_bls381_32.rs -/
def bls381_32 : Rom 32 where
  modbytes := 48
  P := ⟨29, 14, 381, 14, 3, .NotSpecial, [0x1FFFAAAB#32, 0xFF7FFFF#32, 0x14FFFFEE#32, 0x17FFFD62#32, 0xF6241EA#32, 0x9507B58#32, 0xAFD9CC3#32, 0x109E70A2#32, 0x1764774B#32, 0x121A5D66#32, 0x12C6E9ED#32, 0x12FFCD34#32, 0x111EA3#32, 0xD#32], [0x15BEF7AE#32, 0x1031CD0E#32, 0x2DD93E8#32, 0x9226323#32, 0xE6E2CD2#32, 0x11684DAA#32, 0x1170E5DB#32, 0x88E25B1#32, 0x1B366399#32, 0x1C536F47#32, 0xD1F9CBC#32, 0x278B67F#32, 0x1EA66A2B#32, 0xC#32], 0x1FFCFFFD#32⟩
  p := 0x1A0111EA397FE69A4B1BA7B6434BACD764774B84F38512BF6730D2A0F6B0F6241EABFFFEB153FFFFB9FEFFFFFFFFAAAB
  ctype := .weierstrass
  a := 0
  bI := 4
  bv := [0x4#32, 0x0#32, 0x0#32, 0x0#32, 0x0#32, 0x0#32, 0x0#32, 0x0#32, 0x0#32, 0x0#32, 0x0#32, 0x0#32, 0x0#32, 0x0#32]
  gx := [0x1B22C6BB#32, 0x19D78056#32, 0x1E86BBFE#32, 0xBD07FF2#32, 0x1AC586C5#32, 0x1D1F8B8D#32, 0x4168538#32, 0x9F2EE97#32, 0xFC3688C#32, 0x27D4D60#32, 0x9A558E3#32, 0x32FAF28#32, 0x1F1D3A73#32, 0xB#32]
  gy := [0x6C5E7E1#32, 0x551194A#32, 0x222B903#32, 0x198E8945#32, 0xB3EDD03#32, 0xC659602#32, 0xBD8036C#32, 0x12BABA01#32, 0x4FCF5E0#32, 0xBA0EC57#32, 0x8278C3B#32, 0x75541E3#32, 0xB3F481E#32, 0x4#32]
  order := [0x1#32, 0x1FFFFFF8#32, 0x1F96FFBF#32, 0x1B4805FF#32, 0x1D80553B#32, 0xC0404D0#32, 0x1520CCE7#32, 0xA6533AF#32, 0x73EDA7#32, 0x0#32, 0x0#32, 0x0#32, 0x0#32, 0x0#32]
  cofI := 0
  cof := [0xAAAB#32, 0x55558#32, 0x157855A3#32, 0x191800AA#32, 0x396#32, 0x0#32, 0x0#32, 0x0#32, 0x0#32, 0x0#32, 0x0#32, 0x0#32, 0x0#32, 0x0#32]

/-- src/roms/rom_bls383_32.rs -/
def bls383_32 : Rom 32 where
  modbytes := 48
  P := ⟨29, 14, 383, 14, 3, .NotSpecial, [0x5AAB0AB#32, 0x11B8EB24#32, 0x19214AF6#32, 0x187E5314#32, 0x124F47A8#32, 0x1C00B4B0#32, 0x1446B0C6#32, 0x59E6CB4#32, 0x4A0AD46#32, 0xFF5494#32, 0x81B6B71#32, 0x956DD6B#32, 0x16556956#32, 0x2A#32], [0x116907F4#32, 0x405B700#32, 0x1752AC11#32, 0x67A9E7C#32, 0x1941C581#32, 0x1AEA38C4#32, 0xB1E4D22#32, 0xCE841AE#32, 0xA0FC49B#32, 0xB4B1F48#32, 0x13852312#32, 0x1B3FDCED#32, 0x1FECE397#32, 0x26#32], 0x73435FD#32⟩
  p := 0x5565569564AB6EB5A06DADC41FEA9284A0AD462CF365A511AC31B801696124F47A8C3F298A64852BDA371D6485AAB0AB
  ctype := .weierstrass
  a := 0
  bI := 15
  bv := [0xF#32, 0x0#32, 0x0#32, 0x0#32, 0x0#32, 0x0#32, 0x0#32, 0x0#32, 0x0#32, 0x0#32, 0x0#32, 0x0#32, 0x0#32, 0x0#32]
  gx := [0x8734573#32, 0x623B9C8#32, 0x1D1DC11E#32, 0xBB7E107#32, 0x1E3445C5#32, 0x1D6C2578#32, 0x10B0BE1E#32, 0xED6103E#32, 0x10F31D9F#32, 0x296ED82#32, 0x18E0D7D0#32, 0x12F3D9C9#32, 0x1FCBA55B#32, 0x20#32]
  gy := [0x3F224#32, 0x968B2F4#32, 0x1FE63F48#32, 0xFA93D90#32, 0x14D2DDE5#32, 0x54A56F5#32, 0x12441D4C#32, 0x18CD76C8#32, 0x199D0DAD#32, 0xE18E236#32, 0x92BA73#32, 0x99F6600#32, 0x8F16727#32, 0x3#32]
  order := [0x1EBC0001#32, 0x1904CF5F#32, 0x834E5CE#32, 0xBE12B42#32, 0xB381DE0#32, 0xE40B4C#32, 0x270110#32, 0x10018017#32, 0x1002001#32, 0x0#32, 0x0#32, 0x0#32, 0x0#32, 0x0#32]
  cofI := 0
  cof := [0x15169EAB#32, 0xA82AB0A#32, 0xAAEFFED#32, 0x15558001#32, 0x555#32, 0x0#32, 0x0#32, 0x0#32, 0x0#32, 0x0#32, 0x0#32, 0x0#32, 0x0#32, 0x0#32]

/-- src/roms/rom_bls461_32.rs -/
def bls461_32 : Rom 32 where
  modbytes := 58
  P := ⟨28, 17, 461, 14, 3, .NotSpecial, [0xAAAAAAB#32, 0xAC0000A#32, 0x54AAAAA#32, 0x5555#32, 0x400020#32, 0x91557F0#32, 0xF26AA#32, 0xFA5C1CC#32, 0xB42A8DF#32, 0x7B14848#32, 0x8BACCA4#32, 0x6F1E32D#32, 0x4935FBD#32, 0x55D6941#32, 0xD5A555A#32, 0x5545554#32, 0x1555#32], [0xC9B6A33#32, 0x2ECD087#32, 0x3CCB2B1#32, 0xCD461FE#32, 0x8CB5AB2#32, 0xC5B9635#32, 0x5312E92#32, 0xB659F64#32, 0x3B596FA#32, 0x8679006#32, 0xA92E2B3#32, 0x3CE05E3#32, 0x363550F#32, 0x7C07A8E#32, 0x382C083#32, 0x6347FEA#32, 0xBD#32], 0xFFFFFFD#32⟩
  p := 0x15555545554D5A555A55D69414935FBD6F1E32D8BACCA47B14848B42A8DFFA5C1CC00F26AA91557F00400020000555554AAAAAAC0000AAAAAAAB
  ctype := .weierstrass
  a := 0
  bI := 9
  bv := [0x9#32, 0x0#32, 0x0#32, 0x0#32, 0x0#32, 0x0#32, 0x0#32, 0x0#32, 0x0#32, 0x0#32, 0x0#32, 0x0#32, 0x0#32, 0x0#32, 0x0#32, 0x0#32, 0x0#32]
  gx := [0xADEE93D#32, 0x4D026A8#32, 0x74B7411#32, 0xD9C00EE#32, 0x31AC7F2#32, 0xC3981B5#32, 0x9218229#32, 0xD3564DC#32, 0xA096650#32, 0x6F7C292#32, 0x9743616#32, 0xBE922B1#32, 0x12CF668#32, 0xC81327#32, 0x463B73A#32, 0xE74E99B#32, 0xAD0#32]
  gy := [0xAD1D465#32, 0xF763157#32, 0xC4FF470#32, 0x17884C8#32, 0xB8D215D#32, 0xA819E66#32, 0xF4959D0#32, 0xE5C3245#32, 0xB84910A#32, 0xB8BFA40#32, 0xBE96EEC#32, 0x8BF9F8C#32, 0xF277ACC#32, 0x5F1C3F2#32, 0x5F68C9#32, 0xCDB14B3#32, 0x77B#32]
  order := [0x1#32, 0x0#32, 0xFFFFC00#32, 0x7FEFFFE#32, 0x110000#32, 0x7FFC800#32, 0x801FC01#32, 0x5FD000E#32, 0x17FE0#32, 0xFFFC018#32, 0xFFFFFF7#32, 0x0#32, 0x0#32, 0x0#32, 0x0#32, 0x0#32, 0x0#32]
  cofI := 0
  cof := [0xAAAAAAB#32, 0xA7FFFEA#32, 0x1556AA#32, 0xD55AAAB#32, 0x554FFFF#32, 0x1555#32, 0x0#32, 0x0#32, 0x0#32, 0x0#32, 0x0#32, 0x0#32, 0x0#32, 0x0#32, 0x0#32, 0x0#32, 0x0#32]

/-- src/roms/rom_bls48_32.rs -/
def bls48_32 : Rom 32 where
  modbytes := 70
  P := ⟨29, 20, 556, 14, 3, .NotSpecial, [0x1CF6AC0B#32, 0x17B7307F#32, 0x19877E7B#32, 0x12CE0134#32, 0x14228402#32, 0x1BD4C386#32, 0x1DACBB04#32, 0x40410D0#32, 0x25A415#32, 0x980B53E#32, 0xDE6E250#32, 0x15D9AAD6#32, 0x5DA950#32, 0x1029B7A#32, 0x54AB351#32, 0x14AD90CE#32, 0x3729047#32, 0x1FE7E2D9#32, 0x145F610B#32, 0x1F#32], [0xD59D0FA#32, 0x12F01FD0#32, 0xDE8FD41#32, 0x35AAEE1#32, 0xB937F48#32, 0x50700E8#32, 0x1F50EFCE#32, 0x1019B13C#32, 0x3470A2F#32, 0x11094115#32, 0xF9FB72D#32, 0x6AD10E2#32, 0x1CFD9F8#32, 0x44F4785#32, 0x2B48793#32, 0x1148ED3#32, 0xF609E61#32, 0x1EE34BC7#32, 0x1735D29E#32, 0x0#32], 0x9DA805D#32⟩
  p := 0xFD17D842FFCFC5B23729047A56C867152ACD4420536F405DA950AECD56B379B89413016A7C025A415202086876B2EC137A9870D4228402967009A661DF9EEF6E60FFCF6AC0B
  ctype := .weierstrass
  a := 0
  bI := 17
  bv := [0x11#32, 0x0#32, 0x0#32, 0x0#32, 0x0#32, 0x0#32, 0x0#32, 0x0#32, 0x0#32, 0x0#32, 0x0#32, 0x0#32, 0x0#32, 0x0#32, 0x0#32, 0x0#32, 0x0#32, 0x0#32, 0x0#32, 0x0#32]
  gx := [0x5D71D33#32, 0x1943697B#32, 0x18CB783F#32, 0x1B00AA9F#32, 0x1711EE0B#32, 0x7F80B23#32, 0x129FD8CC#32, 0x1345E03F#32, 0x9A80F66#32, 0x7038173#32, 0xC056511#32, 0x142801F5#32, 0x42B2C3A#32, 0x1AF09869#32, 0x7924166#32, 0x8381264#32, 0x957EDD7#32, 0xBACAEDC#32, 0xA27A4A1#32, 0x13#32]
  gy := [0xA6ED83A#32, 0x14D2D9FF#32, 0xA29C33D#32, 0x1B8972A9#32, 0x6958677#32, 0x19C8F547#32, 0x1DED7E3E#32, 0x14F9E3DC#32, 0x18FB7229#32, 0x27171C0#32, 0x1551E32D#32, 0xE6184CC#32, 0x6260E3C#32, 0x733D204#32, 0x579C437#32, 0x1534665C#32, 0x2B3349D#32, 0x3162FD7#32, 0xB634253#32, 0x1#32]
  order := [0x1#32, 0x17FFF800#32, 0xA769C21#32, 0x8AA813C#32, 0x2029C21#32, 0xA68F58B#32, 0xB6307F4#32, 0x1184DA51#32, 0x6DFED78#32, 0x1A3C85E9#32, 0x571037B#32, 0x1637F1F9#32, 0x1C465FB0#32, 0x98354B9#32, 0x118DF17A#32, 0x1422355D#32, 0x43BF73E#32, 0x6#32, 0x0#32, 0x0#32]
  cofI := 0
  cof := [0x1F12ABEB#32, 0x516887B#32, 0x5#32, 0x0#32, 0x0#32, 0x0#32, 0x0#32, 0x0#32, 0x0#32, 0x0#32, 0x0#32, 0x0#32, 0x0#32, 0x0#32, 0x0#32, 0x0#32, 0x0#32, 0x0#32, 0x0#32, 0x0#32]

/-- src/roms/rom_bn254_32.rs -/
def bn254_32 : Rom 32 where
  modbytes := 32
  P := ⟨28, 10, 254, 14, 3, .NotSpecial, [0x13#32, 0x0#32, 0x13A7#32, 0x0#32, 0x86121#32, 0x8000000#32, 0x1BA344D#32, 0x4000000#32, 0x5236482#32, 0x2#32], [0xF5E7E39#32, 0x2F2A96F#32, 0xB96F13C#32, 0x64E8642#32, 0xC7146#32, 0x9926F7B#32, 0x4DACD24#32, 0x8321E7B#32, 0xD127A2E#32, 0x1#32], 0x79435E5#32⟩
  p := 0x2523648240000001BA344D80000000086121000000000013A700000000000013
  ctype := .weierstrass
  a := 0
  bI := 2
  bv := [0x2#32, 0x0#32, 0x0#32, 0x0#32, 0x0#32, 0x0#32, 0x0#32, 0x0#32, 0x0#32, 0x0#32]
  gx := [0x12#32, 0x0#32, 0x13A7#32, 0x0#32, 0x86121#32, 0x8000000#32, 0x1BA344D#32, 0x4000000#32, 0x5236482#32, 0x2#32]
  gy := [0x1#32, 0x0#32, 0x0#32, 0x0#32, 0x0#32, 0x0#32, 0x0#32, 0x0#32, 0x0#32, 0x0#32]
  order := [0xD#32, 0x0#32, 0x10A1#32, 0x8000000#32, 0x7FF9F#32, 0x8000000#32, 0x1BA344D#32, 0x4000000#32, 0x5236482#32, 0x2#32]
  cofI := 1
  cof := [0x1#32, 0x0#32, 0x0#32, 0x0#32, 0x0#32, 0x0#32, 0x0#32, 0x0#32, 0x0#32, 0x0#32]

/-- src/roms/rom_bn254cx_32.rs -/
def bn254cx_32 : Rom 32 where
  modbytes := 32
  P := ⟨28, 10, 254, 14, 3, .NotSpecial, [0xC1B55B3#32, 0x6623EF5#32, 0x93EE1BE#32, 0xD6EE180#32, 0x6D3243F#32, 0x647A636#32, 0xDB0BDDF#32, 0x8702A0#32, 0x4000000#32, 0x2#32], [0x8A0800A#32, 0x466A061#32, 0x43056A3#32, 0x2B3A225#32, 0x9C6600#32, 0x148515B#32, 0x6BDF50#32, 0xEC9EA56#32, 0xC992E66#32, 0x1#32], 0x9789E85#32⟩
  p := 0x2400000008702A0DB0BDDF647A6366D3243FD6EE18093EE1BE6623EF5C1B55B3
  ctype := .weierstrass
  a := 0
  bI := 2
  bv := [0x2#32, 0x0#32, 0x0#32, 0x0#32, 0x0#32, 0x0#32, 0x0#32, 0x0#32, 0x0#32, 0x0#32]
  gx := [0xC1B55B2#32, 0x6623EF5#32, 0x93EE1BE#32, 0xD6EE180#32, 0x6D3243F#32, 0x647A636#32, 0xDB0BDDF#32, 0x8702A0#32, 0x4000000#32, 0x2#32]
  gy := [0x1#32, 0x0#32, 0x0#32, 0x0#32, 0x0#32, 0x0#32, 0x0#32, 0x0#32, 0x0#32, 0x0#32]
  order := [0x6EB1F6D#32, 0x11C0A63#32, 0x906CEBE#32, 0xD6EE0CC#32, 0x6D2C43F#32, 0x647A636#32, 0xDB0BDDF#32, 0x8702A0#32, 0x4000000#32, 0x2#32]
  cofI := 1
  cof := [0x1#32, 0x0#32, 0x0#32, 0x0#32, 0x0#32, 0x0#32, 0x0#32, 0x0#32, 0x0#32, 0x0#32]

/-- src/roms/rom_brainpool_32.rs -/
def brainpool_32 : Rom 32 where
  modbytes := 32
  P := ⟨28, 10, 256, 14, 7, .NotSpecial, [0xF6E5377#32, 0x13481D1#32, 0x6202820#32, 0xF623D52#32, 0xD726E3B#32, 0x909D838#32, 0xC3E660A#32, 0xA1EEA9B#32, 0x9FB57DB#32, 0xA#32], [0xB9A3787#32, 0x9E04F49#32, 0x8F3CF49#32, 0x2931721#32, 0xF1DBC89#32, 0x54E8C3C#32, 0xF7559CA#32, 0xBB411A3#32, 0x773E15F#32, 0x9#32], 0xEFD89B9#32⟩
  p := 0xA9FB57DBA1EEA9BC3E660A909D838D726E3BF623D52620282013481D1F6E5377
  ctype := .weierstrass
  a := -3
  bI := 0
  bv := [0xEE92B04#32, 0xE58101F#32, 0xF49256A#32, 0xEBC4AF2#32, 0x6B7BF93#32, 0x733D0B7#32, 0x4FE66A7#32, 0x30D84EA#32, 0x62C61C4#32, 0x6#32]
  gx := [0xE1305F4#32, 0xA191562#32, 0xFBC2B79#32, 0x42C47AA#32, 0x149AFA1#32, 0xB23A656#32, 0x7732213#32, 0xC1CFE7B#32, 0x3E8EB3C#32, 0xA#32]
  gy := [0xB25C9BE#32, 0xABE8F35#32, 0x27001D#32, 0xB6DE39D#32, 0x17E69BC#32, 0xE146444#32, 0xD7F7B22#32, 0x3439C56#32, 0xD996C82#32, 0x2#32]
  order := [0x74856A7#32, 0x1E0E829#32, 0x1A6F790#32, 0x7AA3B56#32, 0xD718C39#32, 0x909D838#32, 0xC3E660A#32, 0xA1EEA9B#32, 0x9FB57DB#32, 0xA#32]
  cofI := 1
  cof := [0x1#32, 0x0#32, 0x0#32, 0x0#32, 0x0#32, 0x0#32, 0x0#32, 0x0#32, 0x0#32, 0x0#32]

/-- src/roms/rom_c25519_32.rs -/
def c25519_32 : Rom 32 where
  modbytes := 32
  P := ⟨29, 9, 255, 6, 5, .PseudoMersenne, [0x1FFFFFED#32, 0x1FFFFFFF#32, 0x1FFFFFFF#32, 0x1FFFFFFF#32, 0x1FFFFFFF#32, 0x1FFFFFFF#32, 0x1FFFFFFF#32, 0x1FFFFFFF#32, 0x7FFFFF#32], [0x169000#32, 0x0#32, 0x0#32, 0x0#32, 0x0#32, 0x0#32, 0x0#32, 0x0#32, 0x0#32], 0x13#32⟩
  p := 0x7FFFFFFFFFFFFFFFFFFFFFFFFFFFFFFFFFFFFFFFFFFFFFFFFFFFFFFFFFFFFFED
  ctype := .montgomery
  a := 486662
  bI := 0
  bv := [0x0#32, 0x0#32, 0x0#32, 0x0#32, 0x0#32, 0x0#32, 0x0#32, 0x0#32, 0x0#32]
  gx := [0x9#32, 0x0#32, 0x0#32, 0x0#32, 0x0#32, 0x0#32, 0x0#32, 0x0#32, 0x0#32]
  gy := [0x0#32, 0x0#32, 0x0#32, 0x0#32, 0x0#32, 0x0#32, 0x0#32, 0x0#32, 0x0#32]
  order := [0x1CF5D3ED#32, 0x9318D2#32, 0x1DE73596#32, 0x1DF3BD45#32, 0x14D#32, 0x0#32, 0x0#32, 0x0#32, 0x100000#32]
  cofI := 8
  cof := [0x8#32, 0x0#32, 0x0#32, 0x0#32, 0x0#32, 0x0#32, 0x0#32, 0x0#32, 0x0#32]

/-- src/roms/rom_c41417_32.rs -/
def c41417_32 : Rom 32 where
  modbytes := 52
  P := ⟨29, 15, 414, 14, 7, .PseudoMersenne, [0x1FFFFFEF#32, 0x1FFFFFFF#32, 0x1FFFFFFF#32, 0x1FFFFFFF#32, 0x1FFFFFFF#32, 0x1FFFFFFF#32, 0x1FFFFFFF#32, 0x1FFFFFFF#32, 0x1FFFFFFF#32, 0x1FFFFFFF#32, 0x1FFFFFFF#32, 0x1FFFFFFF#32, 0x1FFFFFFF#32, 0x1FFFFFFF#32, 0xFF#32], [0x0#32, 0x242000#32, 0x0#32, 0x0#32, 0x0#32, 0x0#32, 0x0#32, 0x0#32, 0x0#32, 0x0#32, 0x0#32, 0x0#32, 0x0#32, 0x0#32, 0x0#32], 0x11#32⟩
  p := 0x3FFFFFFFFFFFFFFFFFFFFFFFFFFFFFFFFFFFFFFFFFFFFFFFFFFFFFFFFFFFFFFFFFFFFFFFFFFFFFFFFFFFFFFFFFFFFFFFFFFFFFEF
  ctype := .edwards
  a := 1
  bI := 3617
  bv := [0xE21#32, 0x0#32, 0x0#32, 0x0#32, 0x0#32, 0x0#32, 0x0#32, 0x0#32, 0x0#32, 0x0#32, 0x0#32, 0x0#32, 0x0#32, 0x0#32, 0x0#32]
  gx := [0x13CBC595#32, 0x7E9C097#32, 0x14DF1931#32, 0x14E7F550#32, 0x1A111301#32, 0x15A6B6B5#32, 0xD526292#32, 0x18FEAFFE#32, 0x1F44C03E#32, 0x1E6A31B4#32, 0x70C9B97#32, 0x43180C6#32, 0x1443300#32, 0x19A4828A#32, 0x68#32]
  gy := [0x22#32, 0x0#32, 0x0#32, 0x0#32, 0x0#32, 0x0#32, 0x0#32, 0x0#32, 0x0#32, 0x0#32, 0x0#32, 0x0#32, 0x0#32, 0x0#32, 0x0#32]
  order := [0x106AF79#32, 0x18738D2F#32, 0x18F3C606#32, 0x1806715A#32, 0x22B36F1#32, 0xA67B830#32, 0xCF32490#32, 0x1FFFFFFD#32, 0x1FFFFFFF#32, 0x1FFFFFFF#32, 0x1FFFFFFF#32, 0x1FFFFFFF#32, 0x1FFFFFFF#32, 0x1FFFFFFF#32, 0x1F#32]
  cofI := 8
  cof := [0x8#32, 0x0#32, 0x0#32, 0x0#32, 0x0#32, 0x0#32, 0x0#32, 0x0#32, 0x0#32, 0x0#32, 0x0#32, 0x0#32, 0x0#32, 0x0#32, 0x0#32]

/-- src/roms/rom_ed25519_32.rs -/
def ed25519_32 : Rom 32 where
  modbytes := 32
  P := ⟨29, 9, 255, 6, 5, .PseudoMersenne, [0x1FFFFFED#32, 0x1FFFFFFF#32, 0x1FFFFFFF#32, 0x1FFFFFFF#32, 0x1FFFFFFF#32, 0x1FFFFFFF#32, 0x1FFFFFFF#32, 0x1FFFFFFF#32, 0x7FFFFF#32], [0x169000#32, 0x0#32, 0x0#32, 0x0#32, 0x0#32, 0x0#32, 0x0#32, 0x0#32, 0x0#32], 0x13#32⟩
  p := 0x7FFFFFFFFFFFFFFFFFFFFFFFFFFFFFFFFFFFFFFFFFFFFFFFFFFFFFFFFFFFFFED
  ctype := .edwards
  a := -1
  bI := 0
  bv := [0x135978A3#32, 0xF5A6E50#32, 0x10762ADD#32, 0x149A82#32, 0x1E898007#32, 0x3CBBBC#32, 0x19CE331D#32, 0x1DC56DFF#32, 0x52036C#32]
  gx := [0xF25D51A#32, 0xAB16B04#32, 0x969ECB2#32, 0x198EC12A#32, 0xDC5C692#32, 0x1118FEEB#32, 0xFFB0293#32, 0x1A79ADCA#32, 0x216936#32]
  gy := [0x6666658#32, 0x13333333#32, 0x19999999#32, 0xCCCCCCC#32, 0x6666666#32, 0x13333333#32, 0x19999999#32, 0xCCCCCCC#32, 0x666666#32]
  order := [0x1CF5D3ED#32, 0x9318D2#32, 0x1DE73596#32, 0x1DF3BD45#32, 0x14D#32, 0x0#32, 0x0#32, 0x0#32, 0x100000#32]
  cofI := 8
  cof := [0x8#32, 0x0#32, 0x0#32, 0x0#32, 0x0#32, 0x0#32, 0x0#32, 0x0#32, 0x0#32]

/-- src/roms/rom_fp256bn_32.rs -/
def fp256bn_32 : Rom 32 where
  modbytes := 32
  P := ⟨28, 10, 256, 14, 3, .NotSpecial, [0xED33013#32, 0x292DDBA#32, 0x80A82D3#32, 0x65FB129#32, 0x49F0CDC#32, 0x5EEE71A#32, 0xD46E5F2#32, 0xFFFCF0C#32, 0xFFFFFFF#32, 0xF#32], [0x3B9F8B#32, 0xEDE3363#32, 0xFEC54E8#32, 0x92FFEE9#32, 0x3C55F79#32, 0x13C1C06#32, 0xC0123FA#32, 0xA12F2EA#32, 0xE559B2A#32, 0x8#32], 0x537E5E5#32⟩
  p := 0xFFFFFFFFFFFCF0CD46E5F25EEE71A49F0CDC65FB12980A82D3292DDBAED33013
  ctype := .weierstrass
  a := 0
  bI := 3
  bv := [0x3#32, 0x0#32, 0x0#32, 0x0#32, 0x0#32, 0x0#32, 0x0#32, 0x0#32, 0x0#32, 0x0#32]
  gx := [0x1#32, 0x0#32, 0x0#32, 0x0#32, 0x0#32, 0x0#32, 0x0#32, 0x0#32, 0x0#32, 0x0#32]
  gy := [0x2#32, 0x0#32, 0x0#32, 0x0#32, 0x0#32, 0x0#32, 0x0#32, 0x0#32, 0x0#32, 0x0#32]
  order := [0x10B500D#32, 0x2D536CD#32, 0x9921AF6#32, 0x65FB129#32, 0x49E0CDC#32, 0x5EEE71A#32, 0xD46E5F2#32, 0xFFFCF0C#32, 0xFFFFFFF#32, 0xF#32]
  cofI := 1
  cof := [0x1#32, 0x0#32, 0x0#32, 0x0#32, 0x0#32, 0x0#32, 0x0#32, 0x0#32, 0x0#32, 0x0#32]

/-- src/roms/rom_goldilocks_32.rs -/
def goldilocks_32 : Rom 32 where
  modbytes := 56
  P := ⟨29, 16, 448, 14, 7, .GeneralisedMersenne, [0x1FFFFFFF#32, 0x1FFFFFFF#32, 0x1FFFFFFF#32, 0x1FFFFFFF#32, 0x1FFFFFFF#32, 0x1FFFFFFF#32, 0x1FFFFFFF#32, 0x1FDFFFFF#32, 0x1FFFFFFF#32, 0x1FFFFFFF#32, 0x1FFFFFFF#32, 0x1FFFFFFF#32, 0x1FFFFFFF#32, 0x1FFFFFFF#32, 0x1FFFFFFF#32, 0x1FFF#32], [0x0#32, 0x10#32, 0x0#32, 0x0#32, 0x0#32, 0x0#32, 0x0#32, 0x0#32, 0x3000000#32, 0x0#32, 0x0#32, 0x0#32, 0x0#32, 0x0#32, 0x0#32, 0x0#32], 0x1#32⟩
  p := 0xFFFFFFFFFFFFFFFFFFFFFFFFFFFFFFFFFFFFFFFFFFFFFFFFFFFFFFFEFFFFFFFFFFFFFFFFFFFFFFFFFFFFFFFFFFFFFFFFFFFFFFFFFFFFFFFF
  ctype := .edwards
  a := 1
  bI := -39081
  bv := [0x1FFF6756#32, 0x1FFFFFFF#32, 0x1FFFFFFF#32, 0x1FFFFFFF#32, 0x1FFFFFFF#32, 0x1FFFFFFF#32, 0x1FFFFFFF#32, 0x1FDFFFFF#32, 0x1FFFFFFF#32, 0x1FFFFFFF#32, 0x1FFFFFFF#32, 0x1FFFFFFF#32, 0x1FFFFFFF#32, 0x1FFFFFFF#32, 0x1FFFFFFF#32, 0x1FFF#32]
  gx := [0x15555555#32, 0xAAAAAAA#32, 0x15555555#32, 0xAAAAAAA#32, 0x15555555#32, 0xAAAAAAA#32, 0x15555555#32, 0x152AAAAA#32, 0xAAAAAAA#32, 0x15555555#32, 0xAAAAAAA#32, 0x15555555#32, 0xAAAAAAA#32, 0x15555555#32, 0xAAAAAAA#32, 0x1555#32]
  gy := [0xA9386ED#32, 0x1757DE6F#32, 0x13681AF6#32, 0x19657DA3#32, 0x3098BBB#32, 0x12C19D15#32, 0x12E03595#32, 0xE515B18#32, 0x17B7E36D#32, 0x1AC426E#32, 0xDBB5E8#32, 0x10D8560#32, 0x159D6205#32, 0xB8246D9#32, 0x17A58D2B#32, 0x15C0#32]
  order := [0xB5844F3#32, 0x1BC61495#32, 0x1163D548#32, 0x1984E51B#32, 0x3690216#32, 0xDA4D76B#32, 0xFA7113B#32, 0x1FEF9944#32, 0x1FFFFFFF#32, 0x1FFFFFFF#32, 0x1FFFFFFF#32, 0x1FFFFFFF#32, 0x1FFFFFFF#32, 0x1FFFFFFF#32, 0x1FFFFFFF#32, 0x7FF#32]
  cofI := 4
  cof := [0x4#32, 0x0#32, 0x0#32, 0x0#32, 0x0#32, 0x0#32, 0x0#32, 0x0#32, 0x0#32, 0x0#32, 0x0#32, 0x0#32, 0x0#32, 0x0#32, 0x0#32, 0x0#32]

/-- src/roms/rom_hifive_32.rs -/
def hifive_32 : Rom 32 where
  modbytes := 42
  P := ⟨29, 12, 336, 12, 5, .PseudoMersenne, [0x1FFFFFFD#32, 0x1FFFFFFF#32, 0x1FFFFFFF#32, 0x1FFFFFFF#32, 0x1FFFFFFF#32, 0x1FFFFFFF#32, 0x1FFFFFFF#32, 0x1FFFFFFF#32, 0x1FFFFFFF#32, 0x1FFFFFFF#32, 0x1FFFFFFF#32, 0x1FFFF#32], [0x9000000#32, 0x0#32, 0x0#32, 0x0#32, 0x0#32, 0x0#32, 0x0#32, 0x0#32, 0x0#32, 0x0#32, 0x0#32, 0x0#32], 0x3#32⟩
  p := 0xFFFFFFFFFFFFFFFFFFFFFFFFFFFFFFFFFFFFFFFFFFFFFFFFFFFFFFFFFFFFFFFFFFFFFFFFFFFFFFFFFFFD
  ctype := .edwards
  a := 1
  bI := 11111
  bv := [0x2B67#32, 0x0#32, 0x0#32, 0x0#32, 0x0#32, 0x0#32, 0x0#32, 0x0#32, 0x0#32, 0x0#32, 0x0#32, 0x0#32]
  gx := [0xC#32, 0x0#32, 0x0#32, 0x0#32, 0x0#32, 0x0#32, 0x0#32, 0x0#32, 0x0#32, 0x0#32, 0x0#32, 0x0#32]
  gy := [0x5FE8632#32, 0x15F63428#32, 0xD976C4#32, 0x1AACA194#32, 0x35B6DB5#32, 0x8E3F7A#32, 0x52D1B0E#32, 0xF0A7A36#32, 0x1C161D00#32, 0x8170C70#32, 0x1185AD59#32, 0x181B#32]
  order := [0x1E9FA805#32, 0x197CACB9#32, 0x1E4EEA9E#32, 0x17AD70F#32, 0x1FA9850C#32, 0x38A0A#32, 0x0#32, 0x0#32, 0x0#32, 0x0#32, 0x0#32, 0x4000#32]
  cofI := 8
  cof := [0x8#32, 0x0#32, 0x0#32, 0x0#32, 0x0#32, 0x0#32, 0x0#32, 0x0#32, 0x0#32, 0x0#32, 0x0#32, 0x0#32]

/-- src/roms/rom_nist256_32.rs -/
def nist256_32 : Rom 32 where
  modbytes := 32
  P := ⟨28, 10, 256, 14, 7, .NotSpecial, [0xFFFFFFF#32, 0xFFFFFFF#32, 0xFFFFFFF#32, 0xFFF#32, 0x0#32, 0x0#32, 0x1000000#32, 0x0#32, 0xFFFFFFF#32, 0xF#32], [0x50000#32, 0x300000#32, 0x0#32, 0x0#32, 0xFFFFFFA#32, 0xFFFFFBF#32, 0xFFFFEFF#32, 0xFFFAFFF#32, 0x2FFFF#32, 0x0#32], 0x1#32⟩
  p := 0xFFFFFFFF00000001000000000000000000000000FFFFFFFFFFFFFFFFFFFFFFFF
  ctype := .weierstrass
  a := -3
  bI := 0
  bv := [0x7D2604B#32, 0xCE3C3E2#32, 0x3B0F63B#32, 0x6B0CC5#32, 0x6BC651D#32, 0x5576988#32, 0x7B3EBBD#32, 0xAA3A93E#32, 0xAC635D8#32, 0x5#32]
  gx := [0x898C296#32, 0xA13945D#32, 0xB33A0F4#32, 0x7D812DE#32, 0xF27703#32, 0xE563A44#32, 0x7F8BCE6#32, 0xE12C424#32, 0xB17D1F2#32, 0x6#32]
  gy := [0x7BF51F5#32, 0xB640683#32, 0x15ECECB#32, 0x33576B3#32, 0xE162BCE#32, 0x4A7C0F9#32, 0xB8EE7EB#32, 0xFE1A7F9#32, 0xFE342E2#32, 0x4#32]
  order := [0xC632551#32, 0xB9CAC2F#32, 0x79E84F3#32, 0xFAADA71#32, 0xFFFBCE6#32, 0xFFFFFFF#32, 0xFFFFFF#32, 0x0#32, 0xFFFFFFF#32, 0xF#32]
  cofI := 1
  cof := [0x1#32, 0x0#32, 0x0#32, 0x0#32, 0x0#32, 0x0#32, 0x0#32, 0x0#32, 0x0#32, 0x0#32]

/-- src/roms/rom_nist384_32.rs -/
def nist384_32 : Rom 32 where
  modbytes := 48
  P := ⟨29, 14, 384, 14, 7, .NotSpecial, [0x1FFFFFFF#32, 0x7#32, 0x0#32, 0x1FFFFE00#32, 0x1FFFEFFF#32, 0x1FFFFFFF#32, 0x1FFFFFFF#32, 0x1FFFFFFF#32, 0x1FFFFFFF#32, 0x1FFFFFFF#32, 0x1FFFFFFF#32, 0x1FFFFFFF#32, 0x1FFFFFFF#32, 0x7F#32], [0x0#32, 0x8000#32, 0x1FF80000#32, 0x1FFFFF#32, 0x2000000#32, 0x0#32, 0x0#32, 0x1FFFFFFC#32, 0xF#32, 0x100#32, 0x400#32, 0x0#32, 0x0#32, 0x0#32], 0x1#32⟩
  p := 0xFFFFFFFFFFFFFFFFFFFFFFFFFFFFFFFFFFFFFFFFFFFFFFFFFFFFFFFFFFFFFFFEFFFFFFFF0000000000000000FFFFFFFF
  ctype := .weierstrass
  a := -3
  bI := 0
  bv := [0x13EC2AEF#32, 0x142E476E#32, 0xBB4674A#32, 0xC731B14#32, 0x1875AC65#32, 0x447A809#32, 0x4480C50#32, 0xDDFD028#32, 0x19181D9C#32, 0x1F1FC168#32, 0x623815A#32, 0x47DCFC9#32, 0x1312FA7E#32, 0x59#32]
  gx := [0x12760AB7#32, 0x12A2F1C3#32, 0x154A5B0E#32, 0x5E4BB7E#32, 0x2A38550#32, 0xF0412A#32, 0xE6167DD#32, 0xC5174F3#32, 0x146E1D3B#32, 0x1799056B#32, 0x3AC71C7#32, 0x1D160A6F#32, 0x87CA22B#32, 0x55#32]
  gy := [0x10EA0E5F#32, 0x1218EBE4#32, 0x1FA0675E#32, 0x1639C3A#32, 0xB8C00A6#32, 0x1889DAF8#32, 0x11F3A768#32, 0x17A51342#32, 0x9F8F41D#32, 0x1C9496E1#32, 0x1767A62F#32, 0xC4C58DE#32, 0x17DE4A9#32, 0x1B#32]
  order := [0xCC52973#32, 0x760CB56#32, 0xC29DEBB#32, 0x141B6491#32, 0x12DDF581#32, 0x6C0FA1B#32, 0x1FFF1D8D#32, 0x1FFFFFFF#32, 0x1FFFFFFF#32, 0x1FFFFFFF#32, 0x1FFFFFFF#32, 0x1FFFFFFF#32, 0x1FFFFFFF#32, 0x7F#32]
  cofI := 1
  cof := [0x1#32, 0x0#32, 0x0#32, 0x0#32, 0x0#32, 0x0#32, 0x0#32, 0x0#32, 0x0#32, 0x0#32, 0x0#32, 0x0#32, 0x0#32, 0x0#32]

/-- src/roms/rom_nist521_32.rs -/
def nist521_32 : Rom 32 where
  modbytes := 66
  P := ⟨28, 19, 521, 11, 7, .PseudoMersenne, [0xFFFFFFF#32, 0xFFFFFFF#32, 0xFFFFFFF#32, 0xFFFFFFF#32, 0xFFFFFFF#32, 0xFFFFFFF#32, 0xFFFFFFF#32, 0xFFFFFFF#32, 0xFFFFFFF#32, 0xFFFFFFF#32, 0xFFFFFFF#32, 0xFFFFFFF#32, 0xFFFFFFF#32, 0xFFFFFFF#32, 0xFFFFFFF#32, 0xFFFFFFF#32, 0xFFFFFFF#32, 0xFFFFFFF#32, 0x1FFFF#32], [0x400000#32, 0x0#32, 0x0#32, 0x0#32, 0x0#32, 0x0#32, 0x0#32, 0x0#32, 0x0#32, 0x0#32, 0x0#32, 0x0#32, 0x0#32, 0x0#32, 0x0#32, 0x0#32, 0x0#32, 0x0#32, 0x0#32], 0x1#32⟩
  p := 0x1FFFFFFFFFFFFFFFFFFFFFFFFFFFFFFFFFFFFFFFFFFFFFFFFFFFFFFFFFFFFFFFFFFFFFFFFFFFFFFFFFFFFFFFFFFFFFFFFFFFFFFFFFFFFFFFFFFFFFFFFFFFFFFFFFF
  ctype := .weierstrass
  a := -3
  bI := 0
  bv := [0xB503F00#32, 0x451FD46#32, 0xC34F1EF#32, 0xDF883D2#32, 0xF073573#32, 0xBD3BB1B#32, 0xB1652C0#32, 0xEC7E937#32, 0x6193951#32, 0xF109E15#32, 0x489918E#32, 0x15F3B8B#32, 0x25B99B3#32, 0xEEA2DA7#32, 0xB68540#32, 0x929A21A#32, 0xE1C9A1F#32, 0x3EB9618#32, 0x5195#32]
  gx := [0x2E5BD66#32, 0x7E7E31C#32, 0xA429BF9#32, 0xB3C1856#32, 0x8DE3348#32, 0x27A2FFA#32, 0x8FE1DC1#32, 0xEFE7592#32, 0x14B5E77#32, 0x4D3DBAA#32, 0x8AF606B#32, 0xB521F82#32, 0x139053F#32, 0x429C648#32, 0x62395B4#32, 0x9E3ECB6#32, 0x404E9CD#32, 0x8E06B70#32, 0xC685#32]
  gy := [0xFD16650#32, 0xBE94769#32, 0x2C24088#32, 0x7086A27#32, 0x761353C#32, 0x13FAD0#32, 0xC550B9#32, 0x5EF4264#32, 0x7EE7299#32, 0x3E662C9#32, 0xFBD1727#32, 0x446817A#32, 0x449579B#32, 0xD998F54#32, 0x42C7D1B#32, 0x5C8A5FB#32, 0xA3BC004#32, 0x296A789#32, 0x11839#32]
  order := [0x1386409#32, 0x6FB71E9#32, 0xC47AEBB#32, 0xC9B8899#32, 0x5D03BB5#32, 0x48F709A#32, 0xB7FCC01#32, 0xBF2F966#32, 0x1868783#32, 0xFFFFFA5#32, 0xFFFFFFF#32, 0xFFFFFFF#32, 0xFFFFFFF#32, 0xFFFFFFF#32, 0xFFFFFFF#32, 0xFFFFFFF#32, 0xFFFFFFF#32, 0xFFFFFFF#32, 0x1FFFF#32]
  cofI := 1
  cof := [0x1#32, 0x0#32, 0x0#32, 0x0#32, 0x0#32, 0x0#32, 0x0#32, 0x0#32, 0x0#32, 0x0#32, 0x0#32, 0x0#32, 0x0#32, 0x0#32, 0x0#32, 0x0#32, 0x0#32, 0x0#32, 0x0#32]

/-- src/roms/rom_nums256e_32.rs -/
def nums256e_32 : Rom 32 where
  modbytes := 32
  P := ⟨29, 9, 256, 5, 3, .PseudoMersenne, [0x1FFFFF43#32, 0x1FFFFFFF#32, 0x1FFFFFFF#32, 0x1FFFFFFF#32, 0x1FFFFFFF#32, 0x1FFFFFFF#32, 0x1FFFFFFF#32, 0x1FFFFFFF#32, 0xFFFFFF#32], [0x22E2400#32, 0x0#32, 0x0#32, 0x0#32, 0x0#32, 0x0#32, 0x0#32, 0x0#32, 0x0#32], 0xBD#32⟩
  p := 0xFFFFFFFFFFFFFFFFFFFFFFFFFFFFFFFFFFFFFFFFFFFFFFFFFFFFFFFFFFFFFF43
  ctype := .edwards
  a := 1
  bI := -15342
  bv := [0x1FFFC355#32, 0x1FFFFFFF#32, 0x1FFFFFFF#32, 0x1FFFFFFF#32, 0x1FFFFFFF#32, 0x1FFFFFFF#32, 0x1FFFFFFF#32, 0x1FFFFFFF#32, 0xFFFFFF#32]
  gx := [0xEED13DA#32, 0x6F60481#32, 0x20D61A8#32, 0x13141DC6#32, 0x9BD60C3#32, 0x1EAFB490#32, 0xDF73478#32, 0x1F6D5D44#32, 0x8A7514#32]
  gy := [0x198A89E6#32, 0x1D30B73B#32, 0x15BB4CB#32, 0x1EC3B021#32, 0x18010715#32, 0x12ECD325#32, 0x171F3A59#32, 0x13FB3B24#32, 0x44D53E#32]
  order := [0xEDD4AF5#32, 0x123D8C87#32, 0x1650E6C6#32, 0xAB54A5E#32, 0x419#32, 0x0#32, 0x0#32, 0x0#32, 0x400000#32]
  cofI := 4
  cof := [0x4#32, 0x0#32, 0x0#32, 0x0#32, 0x0#32, 0x0#32, 0x0#32, 0x0#32, 0x0#32]

/-- src/roms/rom_nums256w_32.rs -/
def nums256w_32 : Rom 32 where
  modbytes := 32
  P := ⟨28, 10, 256, 14, 3, .PseudoMersenne, [0xFFFFF43#32, 0xFFFFFFF#32, 0xFFFFFFF#32, 0xFFFFFFF#32, 0xFFFFFFF#32, 0xFFFFFFF#32, 0xFFFFFFF#32, 0xFFFFFFF#32, 0xFFFFFFF#32, 0xF#32], [0x0#32, 0x8900000#32, 0x8B#32, 0x0#32, 0x0#32, 0x0#32, 0x0#32, 0x0#32, 0x0#32, 0x0#32], 0xBD#32⟩
  p := 0xFFFFFFFFFFFFFFFFFFFFFFFFFFFFFFFFFFFFFFFFFFFFFFFFFFFFFFFFFFFFFF43
  ctype := .weierstrass
  a := -3
  bI := 152961
  bv := [0x25581#32, 0x0#32, 0x0#32, 0x0#32, 0x0#32, 0x0#32, 0x0#32, 0x0#32, 0x0#32, 0x0#32]
  gx := [0x21AACB1#32, 0x52EE1EB#32, 0x4C73ABC#32, 0x9B0903D#32, 0xB098357#32, 0xA04F42C#32, 0x1297A95#32, 0x5AAADB6#32, 0xC9ED6B6#32, 0xB#32]
  gy := [0x184DE9F#32, 0xB5B9CB2#32, 0x10FBB80#32, 0xC3D1153#32, 0x35C955#32, 0xF77E04E#32, 0x673448B#32, 0x3399B6A#32, 0x8FC0F1#32, 0xD#32]
  order := [0x751A825#32, 0xAB20294#32, 0x65C6020#32, 0x8275EA2#32, 0xFFFE43C#32, 0xFFFFFFF#32, 0xFFFFFFF#32, 0xFFFFFFF#32, 0xFFFFFFF#32, 0xF#32]
  cofI := 1
  cof := [0x1#32, 0x0#32, 0x0#32, 0x0#32, 0x0#32, 0x0#32, 0x0#32, 0x0#32, 0x0#32, 0x0#32]

/-- src/roms/rom_nums384e_32.rs -/
def nums384e_32 : Rom 32 where
  modbytes := 48
  P := ⟨29, 14, 384, 14, 3, .PseudoMersenne, [0x1FFFFEC3#32, 0x1FFFFFFF#32, 0x1FFFFFFF#32, 0x1FFFFFFF#32, 0x1FFFFFFF#32, 0x1FFFFFFF#32, 0x1FFFFFFF#32, 0x1FFFFFFF#32, 0x1FFFFFFF#32, 0x1FFFFFFF#32, 0x1FFFFFFF#32, 0x1FFFFFFF#32, 0x1FFFFFFF#32, 0x7F#32], [0x0#32, 0x4448000#32, 0x6#32, 0x0#32, 0x0#32, 0x0#32, 0x0#32, 0x0#32, 0x0#32, 0x0#32, 0x0#32, 0x0#32, 0x0#32, 0x0#32], 0x13D#32⟩
  p := 0xFFFFFFFFFFFFFFFFFFFFFFFFFFFFFFFFFFFFFFFFFFFFFFFFFFFFFFFFFFFFFFFFFFFFFFFFFFFFFFFFFFFFFFFFFFFFFEC3
  ctype := .edwards
  a := 1
  bI := -11556
  bv := [0x1FFFD19F#32, 0x1FFFFFFF#32, 0x1FFFFFFF#32, 0x1FFFFFFF#32, 0x1FFFFFFF#32, 0x1FFFFFFF#32, 0x1FFFFFFF#32, 0x1FFFFFFF#32, 0x1FFFFFFF#32, 0x1FFFFFFF#32, 0x1FFFFFFF#32, 0x1FFFFFFF#32, 0x1FFFFFFF#32, 0x7F#32]
  gx := [0xC206BDE#32, 0x6AA0723#32, 0x116504D4#32, 0x52562CA#32, 0x163406FF#32, 0x1FD47998#32, 0x10015D8F#32, 0x8DCB7C9#32, 0x15B30BF4#32, 0x14D72AED#32, 0x102DA884#32, 0xB524CD9#32, 0x1B111FB4#32, 0x30#32]
  gy := [0x10729392#32, 0xC681F0F#32, 0x1B123727#32, 0x561F28D#32, 0x1964B007#32, 0xC7BFB22#32, 0x1D5A0C3E#32, 0xE9E284B#32, 0x1716AD82#32, 0x11D886E#32, 0x1CE2C69#32, 0x134DDD61#32, 0x983E67B#32, 0x41#32]
  order := [0x6A3897D#32, 0x5CEE627#32, 0xD721E48#32, 0x8AAB556#32, 0x1E1CF61E#32, 0xD0E5A35#32, 0x1FFF891C#32, 0x1FFFFFFF#32, 0x1FFFFFFF#32, 0x1FFFFFFF#32, 0x1FFFFFFF#32, 0x1FFFFFFF#32, 0x1FFFFFFF#32, 0x1F#32]
  cofI := 4
  cof := [0x4#32, 0x0#32, 0x0#32, 0x0#32, 0x0#32, 0x0#32, 0x0#32, 0x0#32, 0x0#32, 0x0#32, 0x0#32, 0x0#32, 0x0#32, 0x0#32]

/-- src/roms/rom_nums384w_32.rs -/
def nums384w_32 : Rom 32 where
  modbytes := 48
  P := ⟨29, 14, 384, 14, 3, .PseudoMersenne, [0x1FFFFEC3#32, 0x1FFFFFFF#32, 0x1FFFFFFF#32, 0x1FFFFFFF#32, 0x1FFFFFFF#32, 0x1FFFFFFF#32, 0x1FFFFFFF#32, 0x1FFFFFFF#32, 0x1FFFFFFF#32, 0x1FFFFFFF#32, 0x1FFFFFFF#32, 0x1FFFFFFF#32, 0x1FFFFFFF#32, 0x7F#32], [0x0#32, 0x4448000#32, 0x6#32, 0x0#32, 0x0#32, 0x0#32, 0x0#32, 0x0#32, 0x0#32, 0x0#32, 0x0#32, 0x0#32, 0x0#32, 0x0#32], 0x13D#32⟩
  p := 0xFFFFFFFFFFFFFFFFFFFFFFFFFFFFFFFFFFFFFFFFFFFFFFFFFFFFFFFFFFFFFFFFFFFFFFFFFFFFFFFFFFFFFFFFFFFFFEC3
  ctype := .weierstrass
  a := -3
  bI := -34568
  bv := [0x1FFF77BB#32, 0x1FFFFFFF#32, 0x1FFFFFFF#32, 0x1FFFFFFF#32, 0x1FFFFFFF#32, 0x1FFFFFFF#32, 0x1FFFFFFF#32, 0x1FFFFFFF#32, 0x1FFFFFFF#32, 0x1FFFFFFF#32, 0x1FFFFFFF#32, 0x1FFFFFFF#32, 0x1FFFFFFF#32, 0x7F#32]
  gx := [0x98152A#32, 0x1CE5D021#32, 0x18711EFA#32, 0x1DDA201E#32, 0xC742522#32, 0x148D9536#32, 0x7D3CEF4#32, 0x19BF703F#32, 0x60225C1#32, 0x12082F8D#32, 0x12203288#32, 0x2DE3038#32, 0x17956F0B#32, 0x3A#32]
  gy := [0x6180716#32, 0x3A5C763#32, 0x1D2B4997#32, 0xD69B77F#32, 0x837EBCD#32, 0x1BE890D#32, 0xE72E482#32, 0xEFF0FEE#32, 0x1EB00469#32, 0x2C267B#32, 0x15F8CF4C#32, 0x3371C71#32, 0xDEE368E#32, 0x56#32]
  order := [0x1B0E61B9#32, 0x26C0FB3#32, 0xDF89E98#32, 0x153A7A98#32, 0x16881BED#32, 0x178F75AE#32, 0x1FFF587A#32, 0x1FFFFFFF#32, 0x1FFFFFFF#32, 0x1FFFFFFF#32, 0x1FFFFFFF#32, 0x1FFFFFFF#32, 0x1FFFFFFF#32, 0x7F#32]
  cofI := 1
  cof := [0x1#32, 0x0#32, 0x0#32, 0x0#32, 0x0#32, 0x0#32, 0x0#32, 0x0#32, 0x0#32, 0x0#32, 0x0#32, 0x0#32, 0x0#32, 0x0#32]

/-- src/roms/rom_nums512e_32.rs -/
def nums512e_32 : Rom 32 where
  modbytes := 64
  P := ⟨29, 18, 512, 10, 3, .PseudoMersenne, [0x1FFFFDC7#32, 0x1FFFFFFF#32, 0x1FFFFFFF#32, 0x1FFFFFFF#32, 0x1FFFFFFF#32, 0x1FFFFFFF#32, 0x1FFFFFFF#32, 0x1FFFFFFF#32, 0x1FFFFFFF#32, 0x1FFFFFFF#32, 0x1FFFFFFF#32, 0x1FFFFFFF#32, 0x1FFFFFFF#32, 0x1FFFFFFF#32, 0x1FFFFFFF#32, 0x1FFFFFFF#32, 0x1FFFFFFF#32, 0x7FFFF#32], [0xB100000#32, 0x278#32, 0x0#32, 0x0#32, 0x0#32, 0x0#32, 0x0#32, 0x0#32, 0x0#32, 0x0#32, 0x0#32, 0x0#32, 0x0#32, 0x0#32, 0x0#32, 0x0#32, 0x0#32, 0x0#32], 0x239#32⟩
  p := 0xFFFFFFFFFFFFFFFFFFFFFFFFFFFFFFFFFFFFFFFFFFFFFFFFFFFFFFFFFFFFFFFFFFFFFFFFFFFFFFFFFFFFFFFFFFFFFFFFFFFFFFFFFFFFFFFFFFFFFFFFFFFFFDC7
  ctype := .edwards
  a := 1
  bI := -78296
  bv := [0x1FFECBEF#32, 0x1FFFFFFF#32, 0x1FFFFFFF#32, 0x1FFFFFFF#32, 0x1FFFFFFF#32, 0x1FFFFFFF#32, 0x1FFFFFFF#32, 0x1FFFFFFF#32, 0x1FFFFFFF#32, 0x1FFFFFFF#32, 0x1FFFFFFF#32, 0x1FFFFFFF#32, 0x1FFFFFFF#32, 0x1FFFFFFF#32, 0x1FFFFFFF#32, 0x1FFFFFFF#32, 0x1FFFFFFF#32, 0x7FFFF#32]
  gx := [0x19EC57FE#32, 0xDCD594C#32, 0x113C0571#32, 0xA4A84F9#32, 0x104AD0FE#32, 0x4C92B44#32, 0xC3DE2F7#32, 0x9DDC8CE#32, 0x74621C1#32, 0x1139DC0A#32, 0x9E85FAF#32, 0x1B894704#32, 0x1D1E79F4#32, 0x9E29997#32, 0x32DE223#32, 0x16D38F43#32, 0x116D128D#32, 0x6FC71#32]
  gy := [0x1E2F5E1#32, 0x136EF606#32, 0x1C7407CC#32, 0xDA71537#32, 0xC1FD026#32, 0x3431576#32, 0x15898068#32, 0x1E5D32C6#32, 0x120CA53#32, 0xC84F41A#32, 0xA4ADAE5#32, 0x104B3A45#32, 0x76F726D#32, 0x1512B772#32, 0x3D5DEA0#32, 0x194E3316#32, 0x1FF39D49#32, 0x3684D#32]
  order := [0x1BEED46D#32, 0x1A3467A8#32, 0x1BFB3FD9#32, 0xC0AF0DB#32, 0x86F52A4#32, 0xC64B85B#32, 0x6EA78FF#32, 0xDA5F9F2#32, 0x1FB4F063#32, 0x1FFFFFFF#32, 0x1FFFFFFF#32, 0x1FFFFFFF#32, 0x1FFFFFFF#32, 0x1FFFFFFF#32, 0x1FFFFFFF#32, 0x1FFFFFFF#32, 0x1FFFFFFF#32, 0x1FFFF#32]
  cofI := 4
  cof := [0x4#32, 0x0#32, 0x0#32, 0x0#32, 0x0#32, 0x0#32, 0x0#32, 0x0#32, 0x0#32, 0x0#32, 0x0#32, 0x0#32, 0x0#32, 0x0#32, 0x0#32, 0x0#32, 0x0#32, 0x0#32]

/-- src/roms/rom_nums512w_32.rs -/
def nums512w_32 : Rom 32 where
  modbytes := 64
  P := ⟨29, 18, 512, 10, 3, .PseudoMersenne, [0x1FFFFDC7#32, 0x1FFFFFFF#32, 0x1FFFFFFF#32, 0x1FFFFFFF#32, 0x1FFFFFFF#32, 0x1FFFFFFF#32, 0x1FFFFFFF#32, 0x1FFFFFFF#32, 0x1FFFFFFF#32, 0x1FFFFFFF#32, 0x1FFFFFFF#32, 0x1FFFFFFF#32, 0x1FFFFFFF#32, 0x1FFFFFFF#32, 0x1FFFFFFF#32, 0x1FFFFFFF#32, 0x1FFFFFFF#32, 0x7FFFF#32], [0xB100000#32, 0x278#32, 0x0#32, 0x0#32, 0x0#32, 0x0#32, 0x0#32, 0x0#32, 0x0#32, 0x0#32, 0x0#32, 0x0#32, 0x0#32, 0x0#32, 0x0#32, 0x0#32, 0x0#32, 0x0#32], 0x239#32⟩
  p := 0xFFFFFFFFFFFFFFFFFFFFFFFFFFFFFFFFFFFFFFFFFFFFFFFFFFFFFFFFFFFFFFFFFFFFFFFFFFFFFFFFFFFFFFFFFFFFFFFFFFFFFFFFFFFFFFFFFFFFFFFFFFFFFDC7
  ctype := .weierstrass
  a := -3
  bI := 121243
  bv := [0x1D99B#32, 0x0#32, 0x0#32, 0x0#32, 0x0#32, 0x0#32, 0x0#32, 0x0#32, 0x0#32, 0x0#32, 0x0#32, 0x0#32, 0x0#32, 0x0#32, 0x0#32, 0x0#32, 0x0#32, 0x0#32]
  gx := [0xCABAE57#32, 0x4143CAC#32, 0x1BD778B7#32, 0x1AC026FA#32, 0x15831D5#32, 0x14312AB#32, 0x167A4DE5#32, 0xA20ED66#32, 0x195021A1#32, 0x129836CF#32, 0x1141B830#32, 0xA03ED0A#32, 0xCAD83BB#32, 0x1E9DA94C#32, 0xDC00A80#32, 0x1527B45#32, 0x1447141D#32, 0x1D601#32]
  gy := [0x183527A6#32, 0x1D043B01#32, 0x1F43FA48#32, 0x16B83C99#32, 0x5602CF2#32, 0x1420592D#32, 0x17A70486#32, 0x1B5161DD#32, 0x14A28415#32, 0x3DE8A78#32, 0x3D2C983#32, 0x17797719#32, 0x197DBDEA#32, 0x15D88025#32, 0x1BBB718F#32, 0xAD679C1#32, 0x14CA29AD#32, 0x4A1D2#32]
  order := [0x433555D#32, 0x10A9F9C8#32, 0x1F3490F3#32, 0xD166CC0#32, 0xBDC63B5#32, 0xC76CBE8#32, 0xC6D3F09#32, 0x1F729CF0#32, 0x1F5B3CA4#32, 0x1FFFFFFF#32, 0x1FFFFFFF#32, 0x1FFFFFFF#32, 0x1FFFFFFF#32, 0x1FFFFFFF#32, 0x1FFFFFFF#32, 0x1FFFFFFF#32, 0x1FFFFFFF#32, 0x7FFFF#32]
  cofI := 1
  cof := [0x1#32, 0x0#32, 0x0#32, 0x0#32, 0x0#32, 0x0#32, 0x0#32, 0x0#32, 0x0#32, 0x0#32, 0x0#32, 0x0#32, 0x0#32, 0x0#32, 0x0#32, 0x0#32, 0x0#32, 0x0#32]

/-- src/roms/rom_secp256k1_32.rs -/
def secp256k1_32 : Rom 32 where
  modbytes := 32
  P := ⟨28, 10, 256, 14, 7, .NotSpecial, [0xFFFFC2F#32, 0xFFFFFEF#32, 0xFFFFFFF#32, 0xFFFFFFF#32, 0xFFFFFFF#32, 0xFFFFFFF#32, 0xFFFFFFF#32, 0xFFFFFFF#32, 0xFFFFFFF#32, 0xF#32], [0x0#32, 0xA100000#32, 0x2000E90#32, 0x7A#32, 0x1#32, 0x0#32, 0x0#32, 0x0#32, 0x0#32, 0x0#32], 0x2253531#32⟩
  p := 0xFFFFFFFFFFFFFFFFFFFFFFFFFFFFFFFFFFFFFFFFFFFFFFFFFFFFFFFEFFFFFC2F
  ctype := .weierstrass
  a := 0
  bI := 7
  bv := [0x7#32, 0x0#32, 0x0#32, 0x0#32, 0x0#32, 0x0#32, 0x0#32, 0x0#32, 0x0#32, 0x0#32]
  gx := [0x6F81798#32, 0xF2815B1#32, 0xE28D959#32, 0xFCDB2DC#32, 0xB07029B#32, 0x95CE870#32, 0xC55A062#32, 0xF9DCBBA#32, 0x9BE667E#32, 0x7#32]
  gy := [0xB10D4B8#32, 0x47D08FF#32, 0x554199C#32, 0xB448A68#32, 0x8A8FD17#32, 0xFC0E110#32, 0x55DA4FB#32, 0x26A3C46#32, 0x83ADA77#32, 0x4#32]
  order := [0x364141#32, 0xD25E8CD#32, 0x8A03BBF#32, 0xDCE6AF4#32, 0xFFEBAAE#32, 0xFFFFFFF#32, 0xFFFFFFF#32, 0xFFFFFFF#32, 0xFFFFFFF#32, 0xF#32]
  cofI := 1
  cof := [0x1#32, 0x0#32, 0x0#32, 0x0#32, 0x0#32, 0x0#32, 0x0#32, 0x0#32, 0x0#32, 0x0#32]

/-- all 32-bit ROM files that define a curve (except `fp512bn`) -/
def all32 : List (Rom 32) := [anssi_32, bls24_32, bls381_32, bls383_32, bls461_32, bls48_32, bn254_32, bn254cx_32, brainpool_32, c25519_32, c41417_32, ed25519_32, fp256bn_32, goldilocks_32, hifive_32, nist256_32, nist384_32, nist521_32, nums256e_32, nums256w_32, nums384e_32, nums384w_32, nums512e_32, nums512w_32, secp256k1_32]

end Verif.Rom
