import Verif.Pair.Model
/-
The constants `CURVE_PAIRING_TYPE`, `CURVE_W`, `CURVE_SB`, `CURVE_WB`, `CURVE_BB` of the pairing-friendly ROM files, transcribed by a script from the sources.
-/
namespace Verif.Pair
open Verif.Rom

/-- src/roms/rom_bls381_64.rs -/
def bls381_64g : GlsRom 64 where
  pair := bls381_64p
  bn := false
  w := List.replicate 2 (List.replicate bls381_64p.rom.P.n 0)
  sb := List.replicate 2 (List.replicate 2 (List.replicate bls381_64p.rom.P.n 0))
  wb := List.replicate 4 (List.replicate bls381_64p.rom.P.n 0)
  bb := List.replicate 4 (List.replicate 4 (List.replicate bls381_64p.rom.P.n 0))

/-- src/roms/rom_bls383_64.rs -/
def bls383_64g : GlsRom 64 where
  pair := bls383_64p
  bn := false
  w := List.replicate 2 (List.replicate bls383_64p.rom.P.n 0)
  sb := List.replicate 2 (List.replicate 2 (List.replicate bls383_64p.rom.P.n 0))
  wb := List.replicate 4 (List.replicate bls383_64p.rom.P.n 0)
  bb := List.replicate 4 (List.replicate 4 (List.replicate bls383_64p.rom.P.n 0))

/-- src/roms/rom_bls461_64.rs -/
def bls461_64g : GlsRom 64 where
  pair := bls461_64p
  bn := false
  w := List.replicate 2 (List.replicate bls461_64p.rom.P.n 0)
  sb := List.replicate 2 (List.replicate 2 (List.replicate bls461_64p.rom.P.n 0))
  wb := List.replicate 4 (List.replicate bls461_64p.rom.P.n 0)
  bb := List.replicate 4 (List.replicate 4 (List.replicate bls461_64p.rom.P.n 0))

/-- src/roms/rom_bn254_64.rs -/
def bn254_64g : GlsRom 64 where
  pair := bn254_64p
  bn := true
  w := [[0x3#64, 0x80000000000204#64, 0x6181#64, 0x0#64, 0x0#64], [0x1#64, 0x81#64, 0x0#64, 0x0#64, 0x0#64]]
  sb := [[[0x4#64, 0x80000000000285#64, 0x6181#64, 0x0#64, 0x0#64], [0x1#64, 0x81#64, 0x0#64, 0x0#64, 0x0#64]],
    [[0x1#64, 0x81#64, 0x0#64, 0x0#64, 0x0#64], [0xA#64, 0xE9D#64, 0x80000000079E1E#64, 0x40000001BA344D#64, 0x25236482#64]]]
  wb := [[0x80000000000000#64, 0x80000000000040#64, 0x2080#64, 0x0#64, 0x0#64], [0x80000000000005#64, 0x54A#64, 0x8000000001C707#64, 0x312241#64, 0x0#64], [0x80000000000003#64, 0x800000000002C5#64, 0xC000000000E383#64, 0x189120#64, 0x0#64], [0x80000000000001#64, 0x800000000000C1#64, 0x2080#64, 0x0#64, 0x0#64]]
  bb := [[[0x8000000000000D#64, 0x80000000001060#64, 0x8000000007FF9F#64, 0x40000001BA344D#64, 0x25236482#64], [0x8000000000000C#64, 0x80000000001060#64, 0x8000000007FF9F#64, 0x40000001BA344D#64, 0x25236482#64], [0x8000000000000C#64, 0x80000000001060#64, 0x8000000007FF9F#64, 0x40000001BA344D#64, 0x25236482#64], [0x2#64, 0x81#64, 0x0#64, 0x0#64, 0x0#64]],
    [[0x1#64, 0x81#64, 0x0#64, 0x0#64, 0x0#64], [0x8000000000000C#64, 0x80000000001060#64, 0x8000000007FF9F#64, 0x40000001BA344D#64, 0x25236482#64], [0x8000000000000D#64, 0x80000000001060#64, 0x8000000007FF9F#64, 0x40000001BA344D#64, 0x25236482#64], [0x8000000000000C#64, 0x80000000001060#64, 0x8000000007FF9F#64, 0x40000001BA344D#64, 0x25236482#64]],
    [[0x2#64, 0x81#64, 0x0#64, 0x0#64, 0x0#64], [0x1#64, 0x81#64, 0x0#64, 0x0#64, 0x0#64], [0x1#64, 0x81#64, 0x0#64, 0x0#64, 0x0#64], [0x1#64, 0x81#64, 0x0#64, 0x0#64, 0x0#64]],
    [[0x80000000000002#64, 0x40#64, 0x0#64, 0x0#64, 0x0#64], [0x2#64, 0x102#64, 0x0#64, 0x0#64, 0x0#64], [0xA#64, 0x80000000001020#64, 0x8000000007FF9F#64, 0x40000001BA344D#64, 0x25236482#64], [0x80000000000002#64, 0x40#64, 0x0#64, 0x0#64, 0x0#64]]]

/-- src/roms/rom_bn254cx_64.rs -/
def bn254cx_64g : GlsRom 64 where
  pair := bn254cx_64p
  bn := true
  w := [[0x546349162FEB83#64, 0xB40381200#64, 0x6000#64, 0x0#64, 0x0#64], [0x7802561#64, 0x80#64, 0x0#64, 0x0#64, 0x0#64]]
  sb := [[[0x5463491DB010E4#64, 0xB40381280#64, 0x6000#64, 0x0#64, 0x0#64], [0x7802561#64, 0x80#64, 0x0#64, 0x0#64, 0x0#64]],
    [[0x7802561#64, 0x80#64, 0x0#64, 0x0#64, 0x0#64], [0xBD5D5D20BB33EA#64, 0xD6EE0188CEBCBD#64, 0x647A6366D2643F#64, 0x8702A0DB0BDDF#64, 0x24000000#64]]]
  wb := [[0x1C2118567A84B0#64, 0x3C012B040#64, 0x2000#64, 0x0#64, 0x0#64], [0xCDF995BE220475#64, 0x94EDA8CA7F9A36#64, 0x8702A0DC07E#64, 0x300000#64, 0x0#64], [0x66FCCAE0F10B93#64, 0x4A76D4653FCD3B#64, 0x4381506E03F#64, 0x180000#64, 0x0#64], [0x1C21185DFAAA11#64, 0x3C012B0C0#64, 0x2000#64, 0x0#64, 0x0#64]]
  bb := [[[0x11C0A6332B0CBD#64, 0xD6EE0CC906CE7E#64, 0x647A6366D2C43F#64, 0x8702A0DB0BDDF#64, 0x24000000#64], [0x11C0A6332B0CBC#64, 0xD6EE0CC906CE7E#64, 0x647A6366D2C43F#64, 0x8702A0DB0BDDF#64, 0x24000000#64], [0x11C0A6332B0CBC#64, 0xD6EE0CC906CE7E#64, 0x647A6366D2C43F#64, 0x8702A0DB0BDDF#64, 0x24000000#64], [0x7802562#64, 0x80#64, 0x0#64, 0x0#64, 0x0#64]],
    [[0x7802561#64, 0x80#64, 0x0#64, 0x0#64, 0x0#64], [0x11C0A6332B0CBC#64, 0xD6EE0CC906CE7E#64, 0x647A6366D2C43F#64, 0x8702A0DB0BDDF#64, 0x24000000#64], [0x11C0A6332B0CBD#64, 0xD6EE0CC906CE7E#64, 0x647A6366D2C43F#64, 0x8702A0DB0BDDF#64, 0x24000000#64], [0x11C0A6332B0CBC#64, 0xD6EE0CC906CE7E#64, 0x647A6366D2C43F#64, 0x8702A0DB0BDDF#64, 0x24000000#64]],
    [[0x7802562#64, 0x80#64, 0x0#64, 0x0#64, 0x0#64], [0x7802561#64, 0x80#64, 0x0#64, 0x0#64, 0x0#64], [0x7802561#64, 0x80#64, 0x0#64, 0x0#64, 0x0#64], [0x7802561#64, 0x80#64, 0x0#64, 0x0#64, 0x0#64]],
    [[0x3C012B2#64, 0x40#64, 0x0#64, 0x0#64, 0x0#64], [0xF004AC2#64, 0x100#64, 0x0#64, 0x0#64, 0x0#64], [0x11C0A62F6AFA0A#64, 0xD6EE0CC906CE3E#64, 0x647A6366D2C43F#64, 0x8702A0DB0BDDF#64, 0x24000000#64], [0x3C012B2#64, 0x40#64, 0x0#64, 0x0#64, 0x0#64]]]

/-- src/roms/rom_fp256bn_64.rs -/
def fp256bn_64g : GlsRom 64 where
  pair := fp256bn_64p
  bn := true
  w := [[0xF0036E1B054003#64, 0xFFFFFFFE78663A#64, 0xFFFF#64, 0x0#64, 0x0#64], [0x5EB8061615001#64, 0xD1#64, 0x0#64, 0x0#64, 0x0#64]]
  sb := [[[0xF5EEEE7C669004#64, 0xFFFFFFFE78670B#64, 0xFFFF#64, 0x0#64, 0x0#64], [0x5EB8061615001#64, 0xD1#64, 0x0#64, 0x0#64, 0x0#64]],
    [[0x5EB8061615001#64, 0xD1#64, 0x0#64, 0x0#64, 0x0#64], [0x3D4FFEB606100A#64, 0x65FB129B19B4BB#64, 0x5EEE71A49D0CDC#64, 0xFFFCF0CD46E5F2#64, 0xFFFFFFFF#64]]]
  wb := [[0x20678F0D30A800#64, 0x55555554D2CC10#64, 0x5555#64, 0x0#64, 0x0#64], [0xD6764C0D7DC805#64, 0x8FBEA10BC3AD1A#64, 0x806160104467DE#64, 0xD105EB#64, 0x0#64], [0xACB6061F173803#64, 0x47DF5085E1D6C1#64, 0xC030B0082233EF#64, 0x6882F5#64, 0x0#64], [0x26530F6E91F801#64, 0x55555554D2CCE1#64, 0x5555#64, 0x0#64, 0x0#64]]
  bb := [[[0xAA5DACA05AA80D#64, 0x65FB1299921A8D#64, 0x5EEE71A49E0CDC#64, 0xFFFCF0CD46E5F2#64, 0xFFFFFFFF#64], [0xAA5DACA05AA80C#64, 0x65FB1299921A8D#64, 0x5EEE71A49E0CDC#64, 0xFFFCF0CD46E5F2#64, 0xFFFFFFFF#64], [0xAA5DACA05AA80C#64, 0x65FB1299921A8D#64, 0x5EEE71A49E0CDC#64, 0xFFFCF0CD46E5F2#64, 0xFFFFFFFF#64], [0x5EB8061615002#64, 0xD1#64, 0x0#64, 0x0#64, 0x0#64]],
    [[0x5EB8061615001#64, 0xD1#64, 0x0#64, 0x0#64, 0x0#64], [0xAA5DACA05AA80C#64, 0x65FB1299921A8D#64, 0x5EEE71A49E0CDC#64, 0xFFFCF0CD46E5F2#64, 0xFFFFFFFF#64], [0xAA5DACA05AA80D#64, 0x65FB1299921A8D#64, 0x5EEE71A49E0CDC#64, 0xFFFCF0CD46E5F2#64, 0xFFFFFFFF#64], [0xAA5DACA05AA80C#64, 0x65FB1299921A8D#64, 0x5EEE71A49E0CDC#64, 0xFFFCF0CD46E5F2#64, 0xFFFFFFFF#64]],
    [[0x5EB8061615002#64, 0xD1#64, 0x0#64, 0x0#64, 0x0#64], [0x5EB8061615001#64, 0xD1#64, 0x0#64, 0x0#64, 0x0#64], [0x5EB8061615001#64, 0xD1#64, 0x0#64, 0x0#64, 0x0#64], [0x5EB8061615001#64, 0xD1#64, 0x0#64, 0x0#64, 0x0#64]],
    [[0x82F5C030B0A802#64, 0x68#64, 0x0#64, 0x0#64, 0x0#64], [0xBD700C2C2A002#64, 0x1A2#64, 0x0#64, 0x0#64, 0x0#64], [0x2767EC6FAA000A#64, 0x65FB1299921A25#64, 0x5EEE71A49E0CDC#64, 0xFFFCF0CD46E5F2#64, 0xFFFFFFFF#64], [0x82F5C030B0A802#64, 0x68#64, 0x0#64, 0x0#64, 0x0#64]]]

/-- src/roms/rom_fp512bn_64.rs -/
def fp512bn_64g : GlsRom 64 where
  pair := fp512bn_64p
  bn := true
  w := [[0x110F89749834583#64, 0x65FB911D16A173F#64, 0xFFFFFFFFCF63FE9#64, 0xFFFFFFFFFFFFFFF#64, 0xFFFF#64, 0x0#64, 0x0#64, 0x0#64, 0x0#64], [0x1660D76BC37B01F#64, 0x5EB806161EFE02#64, 0xD1#64, 0x0#64, 0x0#64, 0x0#64, 0x0#64, 0x0#64, 0x0#64]]
  sb := [[[0xFAAEB208D4B9564#64, 0x601010BBB4B193C#64, 0xFFFFFFFFCF63F18#64, 0xFFFFFFFFFFFFFFF#64, 0xFFFF#64, 0x0#64, 0x0#64, 0x0#64, 0x0#64], [0x5403CE8956259CE#64, 0xA45BDA397B2D3E#64, 0xC65DEAB2679A279#64, 0xCF1EACBE98B8E48#64, 0x3C111B0EF445146#64, 0xA1D8CB5307C0BBE#64, 0xFFFF9EC7F01C60B#64, 0xFFFFFFFFFFFFFFF#64, 0xFFFFFFFF#64]],
    [[0x1660D76BC37B01F#64, 0x5EB806161EFE02#64, 0xD1#64, 0x0#64, 0x0#64, 0x0#64, 0x0#64, 0x0#64, 0x0#64], [0x110F89749834583#64, 0x65FB911D16A173F#64, 0xFFFFFFFFCF63FE9#64, 0xFFFFFFFFFFFFFFF#64, 0xFFFF#64, 0x0#64, 0x0#64, 0x0#64, 0x0#64]]]
  wb := [[0x6DAB36AB55A29F0#64, 0xFC42C60583D30C1#64, 0x5555555545215FB#64, 0x555555555555555#64, 0x5555#64, 0x0#64, 0x0#64, 0x0#64, 0x0#64], [0xEEB012BA2355D4B#64, 0xF20FC1FD7F84F17#64, 0x892FA9DE2BB5E5C#64, 0x74B96064DAD40F5#64, 0xD76BC3535163152#64, 0x806161EFE021660#64, 0xD105EB#64, 0x0#64, 0x0#64], [0x7CF03F380289AAD#64, 0xBA82C117183E70C#64, 0xC497D4EF15DAF62#64, 0x3A5CB0326D6A07A#64, 0x6BB5E1A9A8B18A9#64, 0xC030B0F7F010B30#64, 0x6882F5#64, 0x0#64, 0x0#64], [0x574A5F3F92279D1#64, 0xF65745A421E32BF#64, 0x55555555452152A#64, 0x555555555555555#64, 0x5555#64, 0x0#64, 0x0#64, 0x0#64, 0x0#64]]
  bb := [[[0xB306BB5E1BD810#64, 0x82F5C030B0F7F01#64, 0x68#64, 0x0#64, 0x0#64, 0x0#64, 0x0#64, 0x0#64, 0x0#64], [0xB306BB5E1BD80F#64, 0x82F5C030B0F7F01#64, 0x68#64, 0x0#64, 0x0#64, 0x0#64, 0x0#64, 0x0#64, 0x0#64], [0xB306BB5E1BD80F#64, 0x82F5C030B0F7F01#64, 0x68#64, 0x0#64, 0x0#64, 0x0#64, 0x0#64, 0x0#64, 0x0#64], [0x5403CE8956259CF#64, 0xA45BDA397B2D3E#64, 0xC65DEAB2679A279#64, 0xCF1EACBE98B8E48#64, 0x3C111B0EF445146#64, 0xA1D8CB5307C0BBE#64, 0xFFFF9EC7F01C60B#64, 0xFFFFFFFFFFFFFFF#64, 0xFFFFFFFF#64]],
    [[0x1660D76BC37B01F#64, 0x5EB806161EFE02#64, 0xD1#64, 0x0#64, 0x0#64, 0x0#64, 0x0#64, 0x0#64, 0x0#64], [0x5F343A3F37E31DE#64, 0x8D3B7DD448AAC3F#64, 0xC65DEAB2679A2E1#64, 0xCF1EACBE98B8E48#64, 0x3C111B0EF445146#64, 0xA1D8CB5307C0BBE#64, 0xFFFF9EC7F01C60B#64, 0xFFFFFFFFFFFFFFF#64, 0xFFFFFFFF#64], [0x5F343A3F37E31DD#64, 0x8D3B7DD448AAC3F#64, 0xC65DEAB2679A2E1#64, 0xCF1EACBE98B8E48#64, 0x3C111B0EF445146#64, 0xA1D8CB5307C0BBE#64, 0xFFFF9EC7F01C60B#64, 0xFFFFFFFFFFFFFFF#64, 0xFFFFFFFF#64], [0x5F343A3F37E31DE#64, 0x8D3B7DD448AAC3F#64, 0xC65DEAB2679A2E1#64, 0xCF1EACBE98B8E48#64, 0x3C111B0EF445146#64, 0xA1D8CB5307C0BBE#64, 0xFFFF9EC7F01C60B#64, 0xFFFFFFFFFFFFFFF#64, 0xFFFFFFFF#64]],
    [[0x1660D76BC37B01E#64, 0x5EB806161EFE02#64, 0xD1#64, 0x0#64, 0x0#64, 0x0#64, 0x0#64, 0x0#64, 0x0#64], [0x1660D76BC37B01F#64, 0x5EB806161EFE02#64, 0xD1#64, 0x0#64, 0x0#64, 0x0#64, 0x0#64, 0x0#64, 0x0#64], [0x1660D76BC37B01F#64, 0x5EB806161EFE02#64, 0xD1#64, 0x0#64, 0x0#64, 0x0#64, 0x0#64, 0x0#64, 0x0#64], [0x1660D76BC37B01F#64, 0x5EB806161EFE02#64, 0xD1#64, 0x0#64, 0x0#64, 0x0#64, 0x0#64, 0x0#64, 0x0#64]],
    [[0x5F343A3F37E31DF#64, 0x8D3B7DD448AAC3F#64, 0xC65DEAB2679A2E1#64, 0xCF1EACBE98B8E48#64, 0x3C111B0EF445146#64, 0xA1D8CB5307C0BBE#64, 0xFFFF9EC7F01C60B#64, 0xFFFFFFFFFFFFFFF#64, 0xFFFFFFFF#64], [0x3DA2F71D92AA9AF#64, 0x45A3D4235C2F3C#64, 0xC65DEAB2679A1A8#64, 0xCF1EACBE98B8E48#64, 0x3C111B0EF445146#64, 0xA1D8CB5307C0BBE#64, 0xFFFF9EC7F01C60B#64, 0xFFFFFFFFFFFFFFF#64, 0xFFFFFFFF#64], [0x1660D76BC37B01D#64, 0x5EB806161EFE02#64, 0xD1#64, 0x0#64, 0x0#64, 0x0#64, 0x0#64, 0x0#64, 0x0#64], [0x5F343A3F37E31DF#64, 0x8D3B7DD448AAC3F#64, 0xC65DEAB2679A2E1#64, 0xCF1EACBE98B8E48#64, 0x3C111B0EF445146#64, 0xA1D8CB5307C0BBE#64, 0xFFFF9EC7F01C60B#64, 0xFFFFFFFFFFFFFFF#64, 0xFFFFFFFF#64]]]

/-- the bundled 64-bit files -/
def gls64 : List (GlsRom 64) := [bls381_64g, bls383_64g, bls461_64g, bn254_64g, bn254cx_64g, fp256bn_64g, fp512bn_64g]

/-- src/roms/rom_bls381_32.rs -/
def bls381_32g : GlsRom 32 where
  pair := bls381_32p
  bn := false
  w := List.replicate 2 (List.replicate bls381_32p.rom.P.n 0)
  sb := List.replicate 2 (List.replicate 2 (List.replicate bls381_32p.rom.P.n 0))
  wb := List.replicate 4 (List.replicate bls381_32p.rom.P.n 0)
  bb := List.replicate 4 (List.replicate 4 (List.replicate bls381_32p.rom.P.n 0))

/-- src/roms/rom_bls383_32.rs -/
def bls383_32g : GlsRom 32 where
  pair := bls383_32p
  bn := false
  w := List.replicate 2 (List.replicate bls383_32p.rom.P.n 0)
  sb := List.replicate 2 (List.replicate 2 (List.replicate bls383_32p.rom.P.n 0))
  wb := List.replicate 4 (List.replicate bls383_32p.rom.P.n 0)
  bb := List.replicate 4 (List.replicate 4 (List.replicate bls383_32p.rom.P.n 0))

/-- src/roms/rom_bls461_32.rs -/
def bls461_32g : GlsRom 32 where
  pair := bls461_32p
  bn := false
  w := List.replicate 2 (List.replicate bls461_32p.rom.P.n 0)
  sb := List.replicate 2 (List.replicate 2 (List.replicate bls461_32p.rom.P.n 0))
  wb := List.replicate 4 (List.replicate bls461_32p.rom.P.n 0)
  bb := List.replicate 4 (List.replicate 4 (List.replicate bls461_32p.rom.P.n 0))

/-- src/roms/rom_bn254_32.rs -/
def bn254_32g : GlsRom 32 where
  pair := bn254_32p
  bn := true
  w := [[0x3#32, 0x0#32, 0x204#32, 0x8000000#32, 0x6181#32, 0x0#32, 0x0#32, 0x0#32, 0x0#32, 0x0#32], [0x1#32, 0x0#32, 0x81#32, 0x0#32, 0x0#32, 0x0#32, 0x0#32, 0x0#32, 0x0#32, 0x0#32]]
  sb := [[[0x4#32, 0x0#32, 0x285#32, 0x8000000#32, 0x6181#32, 0x0#32, 0x0#32, 0x0#32, 0x0#32, 0x0#32], [0x1#32, 0x0#32, 0x81#32, 0x0#32, 0x0#32, 0x0#32, 0x0#32, 0x0#32, 0x0#32, 0x0#32]],
    [[0x1#32, 0x0#32, 0x81#32, 0x0#32, 0x0#32, 0x0#32, 0x0#32, 0x0#32, 0x0#32, 0x0#32], [0xA#32, 0x0#32, 0xE9D#32, 0x0#32, 0x79E1E#32, 0x8000000#32, 0x1BA344D#32, 0x4000000#32, 0x5236482#32, 0x2#32]]]
  wb := [[0x0#32, 0x8000000#32, 0x40#32, 0x8000000#32, 0x2080#32, 0x0#32, 0x0#32, 0x0#32, 0x0#32, 0x0#32], [0x5#32, 0x8000000#32, 0x54A#32, 0x0#32, 0x1C707#32, 0x8000000#32, 0x312241#32, 0x0#32, 0x0#32, 0x0#32], [0x3#32, 0x8000000#32, 0x2C5#32, 0x8000000#32, 0xE383#32, 0xC000000#32, 0x189120#32, 0x0#32, 0x0#32, 0x0#32], [0x1#32, 0x8000000#32, 0xC1#32, 0x8000000#32, 0x2080#32, 0x0#32, 0x0#32, 0x0#32, 0x0#32, 0x0#32]]
  bb := [[[0xD#32, 0x8000000#32, 0x1060#32, 0x8000000#32, 0x7FF9F#32, 0x8000000#32, 0x1BA344D#32, 0x4000000#32, 0x5236482#32, 0x2#32], [0xC#32, 0x8000000#32, 0x1060#32, 0x8000000#32, 0x7FF9F#32, 0x8000000#32, 0x1BA344D#32, 0x4000000#32, 0x5236482#32, 0x2#32], [0xC#32, 0x8000000#32, 0x1060#32, 0x8000000#32, 0x7FF9F#32, 0x8000000#32, 0x1BA344D#32, 0x4000000#32, 0x5236482#32, 0x2#32], [0x2#32, 0x0#32, 0x81#32, 0x0#32, 0x0#32, 0x0#32, 0x0#32, 0x0#32, 0x0#32, 0x0#32]],
    [[0x1#32, 0x0#32, 0x81#32, 0x0#32, 0x0#32, 0x0#32, 0x0#32, 0x0#32, 0x0#32, 0x0#32], [0xC#32, 0x8000000#32, 0x1060#32, 0x8000000#32, 0x7FF9F#32, 0x8000000#32, 0x1BA344D#32, 0x4000000#32, 0x5236482#32, 0x2#32], [0xD#32, 0x8000000#32, 0x1060#32, 0x8000000#32, 0x7FF9F#32, 0x8000000#32, 0x1BA344D#32, 0x4000000#32, 0x5236482#32, 0x2#32], [0xC#32, 0x8000000#32, 0x1060#32, 0x8000000#32, 0x7FF9F#32, 0x8000000#32, 0x1BA344D#32, 0x4000000#32, 0x5236482#32, 0x2#32]],
    [[0x2#32, 0x0#32, 0x81#32, 0x0#32, 0x0#32, 0x0#32, 0x0#32, 0x0#32, 0x0#32, 0x0#32], [0x1#32, 0x0#32, 0x81#32, 0x0#32, 0x0#32, 0x0#32, 0x0#32, 0x0#32, 0x0#32, 0x0#32], [0x1#32, 0x0#32, 0x81#32, 0x0#32, 0x0#32, 0x0#32, 0x0#32, 0x0#32, 0x0#32, 0x0#32], [0x1#32, 0x0#32, 0x81#32, 0x0#32, 0x0#32, 0x0#32, 0x0#32, 0x0#32, 0x0#32, 0x0#32]],
    [[0x2#32, 0x8000000#32, 0x40#32, 0x0#32, 0x0#32, 0x0#32, 0x0#32, 0x0#32, 0x0#32, 0x0#32], [0x2#32, 0x0#32, 0x102#32, 0x0#32, 0x0#32, 0x0#32, 0x0#32, 0x0#32, 0x0#32, 0x0#32], [0xA#32, 0x0#32, 0x1020#32, 0x8000000#32, 0x7FF9F#32, 0x8000000#32, 0x1BA344D#32, 0x4000000#32, 0x5236482#32, 0x2#32], [0x2#32, 0x8000000#32, 0x40#32, 0x0#32, 0x0#32, 0x0#32, 0x0#32, 0x0#32, 0x0#32, 0x0#32]]]

/-- src/roms/rom_bn254cx_32.rs -/
def bn254cx_32g : GlsRom 32 where
  pair := bn254cx_32p
  bn := true
  w := [[0x62FEB83#32, 0x5463491#32, 0x381200#32, 0xB4#32, 0x6000#32, 0x0#32, 0x0#32, 0x0#32, 0x0#32, 0x0#32], [0x7802561#32, 0x0#32, 0x80#32, 0x0#32, 0x0#32, 0x0#32, 0x0#32, 0x0#32, 0x0#32, 0x0#32]]
  sb := [[[0xDB010E4#32, 0x5463491#32, 0x381280#32, 0xB4#32, 0x6000#32, 0x0#32, 0x0#32, 0x0#32, 0x0#32, 0x0#32], [0x7802561#32, 0x0#32, 0x80#32, 0x0#32, 0x0#32, 0x0#32, 0x0#32, 0x0#32, 0x0#32, 0x0#32]],
    [[0x7802561#32, 0x0#32, 0x80#32, 0x0#32, 0x0#32, 0x0#32, 0x0#32, 0x0#32, 0x0#32, 0x0#32], [0xBB33EA#32, 0xBD5D5D2#32, 0x8CEBCBD#32, 0xD6EE018#32, 0x6D2643F#32, 0x647A636#32, 0xDB0BDDF#32, 0x8702A0#32, 0x4000000#32, 0x2#32]]]
  wb := [[0x67A84B0#32, 0x1C21185#32, 0x12B040#32, 0x3C#32, 0x2000#32, 0x0#32, 0x0#32, 0x0#32, 0x0#32, 0x0#32], [0xE220475#32, 0xCDF995B#32, 0xA7F9A36#32, 0x94EDA8C#32, 0xA0DC07E#32, 0x8702#32, 0x300000#32, 0x0#32, 0x0#32, 0x0#32], [0xF10B93#32, 0x66FCCAE#32, 0x53FCD3B#32, 0x4A76D46#32, 0x506E03F#32, 0x4381#32, 0x180000#32, 0x0#32, 0x0#32, 0x0#32], [0xDFAAA11#32, 0x1C21185#32, 0x12B0C0#32, 0x3C#32, 0x2000#32, 0x0#32, 0x0#32, 0x0#32, 0x0#32, 0x0#32]]
  bb := [[[0x32B0CBD#32, 0x11C0A63#32, 0x906CE7E#32, 0xD6EE0CC#32, 0x6D2C43F#32, 0x647A636#32, 0xDB0BDDF#32, 0x8702A0#32, 0x4000000#32, 0x2#32], [0x32B0CBC#32, 0x11C0A63#32, 0x906CE7E#32, 0xD6EE0CC#32, 0x6D2C43F#32, 0x647A636#32, 0xDB0BDDF#32, 0x8702A0#32, 0x4000000#32, 0x2#32], [0x32B0CBC#32, 0x11C0A63#32, 0x906CE7E#32, 0xD6EE0CC#32, 0x6D2C43F#32, 0x647A636#32, 0xDB0BDDF#32, 0x8702A0#32, 0x4000000#32, 0x2#32], [0x7802562#32, 0x0#32, 0x80#32, 0x0#32, 0x0#32, 0x0#32, 0x0#32, 0x0#32, 0x0#32, 0x0#32]],
    [[0x7802561#32, 0x0#32, 0x80#32, 0x0#32, 0x0#32, 0x0#32, 0x0#32, 0x0#32, 0x0#32, 0x0#32], [0x32B0CBC#32, 0x11C0A63#32, 0x906CE7E#32, 0xD6EE0CC#32, 0x6D2C43F#32, 0x647A636#32, 0xDB0BDDF#32, 0x8702A0#32, 0x4000000#32, 0x2#32], [0x32B0CBD#32, 0x11C0A63#32, 0x906CE7E#32, 0xD6EE0CC#32, 0x6D2C43F#32, 0x647A636#32, 0xDB0BDDF#32, 0x8702A0#32, 0x4000000#32, 0x2#32], [0x32B0CBC#32, 0x11C0A63#32, 0x906CE7E#32, 0xD6EE0CC#32, 0x6D2C43F#32, 0x647A636#32, 0xDB0BDDF#32, 0x8702A0#32, 0x4000000#32, 0x2#32]],
    [[0x7802562#32, 0x0#32, 0x80#32, 0x0#32, 0x0#32, 0x0#32, 0x0#32, 0x0#32, 0x0#32, 0x0#32], [0x7802561#32, 0x0#32, 0x80#32, 0x0#32, 0x0#32, 0x0#32, 0x0#32, 0x0#32, 0x0#32, 0x0#32], [0x7802561#32, 0x0#32, 0x80#32, 0x0#32, 0x0#32, 0x0#32, 0x0#32, 0x0#32, 0x0#32, 0x0#32], [0x7802561#32, 0x0#32, 0x80#32, 0x0#32, 0x0#32, 0x0#32, 0x0#32, 0x0#32, 0x0#32, 0x0#32]],
    [[0x3C012B2#32, 0x0#32, 0x40#32, 0x0#32, 0x0#32, 0x0#32, 0x0#32, 0x0#32, 0x0#32, 0x0#32], [0xF004AC2#32, 0x0#32, 0x100#32, 0x0#32, 0x0#32, 0x0#32, 0x0#32, 0x0#32, 0x0#32, 0x0#32], [0xF6AFA0A#32, 0x11C0A62#32, 0x906CE3E#32, 0xD6EE0CC#32, 0x6D2C43F#32, 0x647A636#32, 0xDB0BDDF#32, 0x8702A0#32, 0x4000000#32, 0x2#32], [0x3C012B2#32, 0x0#32, 0x40#32, 0x0#32, 0x0#32, 0x0#32, 0x0#32, 0x0#32, 0x0#32, 0x0#32]]]

/-- src/roms/rom_fp256bn_32.rs -/
def fp256bn_32g : GlsRom 32 where
  pair := fp256bn_32p
  bn := true
  w := [[0xB054003#32, 0xF0036E1#32, 0xE78663A#32, 0xFFFFFFF#32, 0xFFFF#32, 0x0#32, 0x0#32, 0x0#32, 0x0#32, 0x0#32], [0x1615001#32, 0x5EB806#32, 0xD1#32, 0x0#32, 0x0#32, 0x0#32, 0x0#32, 0x0#32, 0x0#32, 0x0#32]]
  sb := [[[0xC669004#32, 0xF5EEEE7#32, 0xE78670B#32, 0xFFFFFFF#32, 0xFFFF#32, 0x0#32, 0x0#32, 0x0#32, 0x0#32, 0x0#32], [0x1615001#32, 0x5EB806#32, 0xD1#32, 0x0#32, 0x0#32, 0x0#32, 0x0#32, 0x0#32, 0x0#32, 0x0#32]],
    [[0x1615001#32, 0x5EB806#32, 0xD1#32, 0x0#32, 0x0#32, 0x0#32, 0x0#32, 0x0#32, 0x0#32, 0x0#32], [0x606100A#32, 0x3D4FFEB#32, 0xB19B4BB#32, 0x65FB129#32, 0x49D0CDC#32, 0x5EEE71A#32, 0xD46E5F2#32, 0xFFFCF0C#32, 0xFFFFFFF#32, 0xF#32]]]
  wb := [[0xD30A800#32, 0x20678F0#32, 0x4D2CC10#32, 0x5555555#32, 0x5555#32, 0x0#32, 0x0#32, 0x0#32, 0x0#32, 0x0#32], [0xD7DC805#32, 0xD6764C0#32, 0xBC3AD1A#32, 0x8FBEA10#32, 0x4467DE#32, 0x8061601#32, 0xD105EB#32, 0x0#32, 0x0#32, 0x0#32], [0xF173803#32, 0xACB6061#32, 0x5E1D6C1#32, 0x47DF508#32, 0x82233EF#32, 0xC030B00#32, 0x6882F5#32, 0x0#32, 0x0#32, 0x0#32], [0xE91F801#32, 0x26530F6#32, 0x4D2CCE1#32, 0x5555555#32, 0x5555#32, 0x0#32, 0x0#32, 0x0#32, 0x0#32, 0x0#32]]
  bb := [[[0x5AA80D#32, 0xAA5DACA#32, 0x9921A8D#32, 0x65FB129#32, 0x49E0CDC#32, 0x5EEE71A#32, 0xD46E5F2#32, 0xFFFCF0C#32, 0xFFFFFFF#32, 0xF#32], [0x5AA80C#32, 0xAA5DACA#32, 0x9921A8D#32, 0x65FB129#32, 0x49E0CDC#32, 0x5EEE71A#32, 0xD46E5F2#32, 0xFFFCF0C#32, 0xFFFFFFF#32, 0xF#32], [0x5AA80C#32, 0xAA5DACA#32, 0x9921A8D#32, 0x65FB129#32, 0x49E0CDC#32, 0x5EEE71A#32, 0xD46E5F2#32, 0xFFFCF0C#32, 0xFFFFFFF#32, 0xF#32], [0x1615002#32, 0x5EB806#32, 0xD1#32, 0x0#32, 0x0#32, 0x0#32, 0x0#32, 0x0#32, 0x0#32, 0x0#32]],
    [[0x1615001#32, 0x5EB806#32, 0xD1#32, 0x0#32, 0x0#32, 0x0#32, 0x0#32, 0x0#32, 0x0#32, 0x0#32], [0x5AA80C#32, 0xAA5DACA#32, 0x9921A8D#32, 0x65FB129#32, 0x49E0CDC#32, 0x5EEE71A#32, 0xD46E5F2#32, 0xFFFCF0C#32, 0xFFFFFFF#32, 0xF#32], [0x5AA80D#32, 0xAA5DACA#32, 0x9921A8D#32, 0x65FB129#32, 0x49E0CDC#32, 0x5EEE71A#32, 0xD46E5F2#32, 0xFFFCF0C#32, 0xFFFFFFF#32, 0xF#32], [0x5AA80C#32, 0xAA5DACA#32, 0x9921A8D#32, 0x65FB129#32, 0x49E0CDC#32, 0x5EEE71A#32, 0xD46E5F2#32, 0xFFFCF0C#32, 0xFFFFFFF#32, 0xF#32]],
    [[0x1615002#32, 0x5EB806#32, 0xD1#32, 0x0#32, 0x0#32, 0x0#32, 0x0#32, 0x0#32, 0x0#32, 0x0#32], [0x1615001#32, 0x5EB806#32, 0xD1#32, 0x0#32, 0x0#32, 0x0#32, 0x0#32, 0x0#32, 0x0#32, 0x0#32], [0x1615001#32, 0x5EB806#32, 0xD1#32, 0x0#32, 0x0#32, 0x0#32, 0x0#32, 0x0#32, 0x0#32, 0x0#32], [0x1615001#32, 0x5EB806#32, 0xD1#32, 0x0#32, 0x0#32, 0x0#32, 0x0#32, 0x0#32, 0x0#32, 0x0#32]],
    [[0xB0A802#32, 0x82F5C03#32, 0x68#32, 0x0#32, 0x0#32, 0x0#32, 0x0#32, 0x0#32, 0x0#32, 0x0#32], [0x2C2A002#32, 0xBD700C#32, 0x1A2#32, 0x0#32, 0x0#32, 0x0#32, 0x0#32, 0x0#32, 0x0#32, 0x0#32], [0xFAA000A#32, 0x2767EC6#32, 0x9921A25#32, 0x65FB129#32, 0x49E0CDC#32, 0x5EEE71A#32, 0xD46E5F2#32, 0xFFFCF0C#32, 0xFFFFFFF#32, 0xF#32], [0xB0A802#32, 0x82F5C03#32, 0x68#32, 0x0#32, 0x0#32, 0x0#32, 0x0#32, 0x0#32, 0x0#32, 0x0#32]]]

/-- the bundled 32-bit files -/
def gls32 : List (GlsRom 32) := [bls381_32g, bls383_32g, bls461_32g, bn254_32g, bn254cx_32g, fp256bn_32g]

end Verif.Pair
