import Verif.Model.WordBreak

/-!
# Model of libexec/WordBreakProperty.txt.gz
-/

namespace Ocr.Gen
open Word

open WB in
/-- WordBreakProperty.txt.gz:1-1191 (of the decompressed file): the ranges in the order of the file.  Comments are left out. -/
def WordBreakProperty : List Range := [
  ⟨0x0022, 0x0022, Double_Quote⟩, ⟨0x0027, 0x0027, Single_Quote⟩, ⟨0x05D0, 0x05EA, Hebrew_Letter⟩, ⟨0x05F0, 0x05F2, Hebrew_Letter⟩,
  ⟨0xFB1D, 0xFB1D, Hebrew_Letter⟩, ⟨0xFB1F, 0xFB28, Hebrew_Letter⟩, ⟨0xFB2A, 0xFB36, Hebrew_Letter⟩, ⟨0xFB38, 0xFB3C, Hebrew_Letter⟩,
  ⟨0xFB3E, 0xFB3E, Hebrew_Letter⟩, ⟨0xFB40, 0xFB41, Hebrew_Letter⟩, ⟨0xFB43, 0xFB44, Hebrew_Letter⟩, ⟨0xFB46, 0xFB4F, Hebrew_Letter⟩,
  ⟨0x000D, 0x000D, CR⟩, ⟨0x000A, 0x000A, LF⟩, ⟨0x000B, 0x000C, Newline⟩, ⟨0x0085, 0x0085, Newline⟩,
  ⟨0x2028, 0x2028, Newline⟩, ⟨0x2029, 0x2029, Newline⟩, ⟨0x0300, 0x036F, Extend⟩, ⟨0x0483, 0x0487, Extend⟩,
  ⟨0x0488, 0x0489, Extend⟩, ⟨0x0591, 0x05BD, Extend⟩, ⟨0x05BF, 0x05BF, Extend⟩, ⟨0x05C1, 0x05C2, Extend⟩,
  ⟨0x05C4, 0x05C5, Extend⟩, ⟨0x05C7, 0x05C7, Extend⟩, ⟨0x0610, 0x061A, Extend⟩, ⟨0x064B, 0x065F, Extend⟩,
  ⟨0x0670, 0x0670, Extend⟩, ⟨0x06D6, 0x06DC, Extend⟩, ⟨0x06DF, 0x06E4, Extend⟩, ⟨0x06E7, 0x06E8, Extend⟩,
  ⟨0x06EA, 0x06ED, Extend⟩, ⟨0x0711, 0x0711, Extend⟩, ⟨0x0730, 0x074A, Extend⟩, ⟨0x07A6, 0x07B0, Extend⟩,
  ⟨0x07EB, 0x07F3, Extend⟩, ⟨0x0816, 0x0819, Extend⟩, ⟨0x081B, 0x0823, Extend⟩, ⟨0x0825, 0x0827, Extend⟩,
  ⟨0x0829, 0x082D, Extend⟩, ⟨0x0859, 0x085B, Extend⟩, ⟨0x08E3, 0x0902, Extend⟩, ⟨0x0903, 0x0903, Extend⟩,
  ⟨0x093A, 0x093A, Extend⟩, ⟨0x093B, 0x093B, Extend⟩, ⟨0x093C, 0x093C, Extend⟩, ⟨0x093E, 0x0940, Extend⟩,
  ⟨0x0941, 0x0948, Extend⟩, ⟨0x0949, 0x094C, Extend⟩, ⟨0x094D, 0x094D, Extend⟩, ⟨0x094E, 0x094F, Extend⟩,
  ⟨0x0951, 0x0957, Extend⟩, ⟨0x0962, 0x0963, Extend⟩, ⟨0x0981, 0x0981, Extend⟩, ⟨0x0982, 0x0983, Extend⟩,
  ⟨0x09BC, 0x09BC, Extend⟩, ⟨0x09BE, 0x09C0, Extend⟩, ⟨0x09C1, 0x09C4, Extend⟩, ⟨0x09C7, 0x09C8, Extend⟩,
  ⟨0x09CB, 0x09CC, Extend⟩, ⟨0x09CD, 0x09CD, Extend⟩, ⟨0x09D7, 0x09D7, Extend⟩, ⟨0x09E2, 0x09E3, Extend⟩,
  ⟨0x0A01, 0x0A02, Extend⟩, ⟨0x0A03, 0x0A03, Extend⟩, ⟨0x0A3C, 0x0A3C, Extend⟩, ⟨0x0A3E, 0x0A40, Extend⟩,
  ⟨0x0A41, 0x0A42, Extend⟩, ⟨0x0A47, 0x0A48, Extend⟩, ⟨0x0A4B, 0x0A4D, Extend⟩, ⟨0x0A51, 0x0A51, Extend⟩,
  ⟨0x0A70, 0x0A71, Extend⟩, ⟨0x0A75, 0x0A75, Extend⟩, ⟨0x0A81, 0x0A82, Extend⟩, ⟨0x0A83, 0x0A83, Extend⟩,
  ⟨0x0ABC, 0x0ABC, Extend⟩, ⟨0x0ABE, 0x0AC0, Extend⟩, ⟨0x0AC1, 0x0AC5, Extend⟩, ⟨0x0AC7, 0x0AC8, Extend⟩,
  ⟨0x0AC9, 0x0AC9, Extend⟩, ⟨0x0ACB, 0x0ACC, Extend⟩, ⟨0x0ACD, 0x0ACD, Extend⟩, ⟨0x0AE2, 0x0AE3, Extend⟩,
  ⟨0x0B01, 0x0B01, Extend⟩, ⟨0x0B02, 0x0B03, Extend⟩, ⟨0x0B3C, 0x0B3C, Extend⟩, ⟨0x0B3E, 0x0B3E, Extend⟩,
  ⟨0x0B3F, 0x0B3F, Extend⟩, ⟨0x0B40, 0x0B40, Extend⟩, ⟨0x0B41, 0x0B44, Extend⟩, ⟨0x0B47, 0x0B48, Extend⟩,
  ⟨0x0B4B, 0x0B4C, Extend⟩, ⟨0x0B4D, 0x0B4D, Extend⟩, ⟨0x0B56, 0x0B56, Extend⟩, ⟨0x0B57, 0x0B57, Extend⟩,
  ⟨0x0B62, 0x0B63, Extend⟩, ⟨0x0B82, 0x0B82, Extend⟩, ⟨0x0BBE, 0x0BBF, Extend⟩, ⟨0x0BC0, 0x0BC0, Extend⟩,
  ⟨0x0BC1, 0x0BC2, Extend⟩, ⟨0x0BC6, 0x0BC8, Extend⟩, ⟨0x0BCA, 0x0BCC, Extend⟩, ⟨0x0BCD, 0x0BCD, Extend⟩,
  ⟨0x0BD7, 0x0BD7, Extend⟩, ⟨0x0C00, 0x0C00, Extend⟩, ⟨0x0C01, 0x0C03, Extend⟩, ⟨0x0C3E, 0x0C40, Extend⟩,
  ⟨0x0C41, 0x0C44, Extend⟩, ⟨0x0C46, 0x0C48, Extend⟩, ⟨0x0C4A, 0x0C4D, Extend⟩, ⟨0x0C55, 0x0C56, Extend⟩,
  ⟨0x0C62, 0x0C63, Extend⟩, ⟨0x0C81, 0x0C81, Extend⟩, ⟨0x0C82, 0x0C83, Extend⟩, ⟨0x0CBC, 0x0CBC, Extend⟩,
  ⟨0x0CBE, 0x0CBE, Extend⟩, ⟨0x0CBF, 0x0CBF, Extend⟩, ⟨0x0CC0, 0x0CC4, Extend⟩, ⟨0x0CC6, 0x0CC6, Extend⟩,
  ⟨0x0CC7, 0x0CC8, Extend⟩, ⟨0x0CCA, 0x0CCB, Extend⟩, ⟨0x0CCC, 0x0CCD, Extend⟩, ⟨0x0CD5, 0x0CD6, Extend⟩,
  ⟨0x0CE2, 0x0CE3, Extend⟩, ⟨0x0D01, 0x0D01, Extend⟩, ⟨0x0D02, 0x0D03, Extend⟩, ⟨0x0D3E, 0x0D40, Extend⟩,
  ⟨0x0D41, 0x0D44, Extend⟩, ⟨0x0D46, 0x0D48, Extend⟩, ⟨0x0D4A, 0x0D4C, Extend⟩, ⟨0x0D4D, 0x0D4D, Extend⟩,
  ⟨0x0D57, 0x0D57, Extend⟩, ⟨0x0D62, 0x0D63, Extend⟩, ⟨0x0D82, 0x0D83, Extend⟩, ⟨0x0DCA, 0x0DCA, Extend⟩,
  ⟨0x0DCF, 0x0DD1, Extend⟩, ⟨0x0DD2, 0x0DD4, Extend⟩, ⟨0x0DD6, 0x0DD6, Extend⟩, ⟨0x0DD8, 0x0DDF, Extend⟩,
  ⟨0x0DF2, 0x0DF3, Extend⟩, ⟨0x0E31, 0x0E31, Extend⟩, ⟨0x0E34, 0x0E3A, Extend⟩, ⟨0x0E47, 0x0E4E, Extend⟩,
  ⟨0x0EB1, 0x0EB1, Extend⟩, ⟨0x0EB4, 0x0EB9, Extend⟩, ⟨0x0EBB, 0x0EBC, Extend⟩, ⟨0x0EC8, 0x0ECD, Extend⟩,
  ⟨0x0F18, 0x0F19, Extend⟩, ⟨0x0F35, 0x0F35, Extend⟩, ⟨0x0F37, 0x0F37, Extend⟩, ⟨0x0F39, 0x0F39, Extend⟩,
  ⟨0x0F3E, 0x0F3F, Extend⟩, ⟨0x0F71, 0x0F7E, Extend⟩, ⟨0x0F7F, 0x0F7F, Extend⟩, ⟨0x0F80, 0x0F84, Extend⟩,
  ⟨0x0F86, 0x0F87, Extend⟩, ⟨0x0F8D, 0x0F97, Extend⟩, ⟨0x0F99, 0x0FBC, Extend⟩, ⟨0x0FC6, 0x0FC6, Extend⟩,
  ⟨0x102B, 0x102C, Extend⟩, ⟨0x102D, 0x1030, Extend⟩, ⟨0x1031, 0x1031, Extend⟩, ⟨0x1032, 0x1037, Extend⟩,
  ⟨0x1038, 0x1038, Extend⟩, ⟨0x1039, 0x103A, Extend⟩, ⟨0x103B, 0x103C, Extend⟩, ⟨0x103D, 0x103E, Extend⟩,
  ⟨0x1056, 0x1057, Extend⟩, ⟨0x1058, 0x1059, Extend⟩, ⟨0x105E, 0x1060, Extend⟩, ⟨0x1062, 0x1064, Extend⟩,
  ⟨0x1067, 0x106D, Extend⟩, ⟨0x1071, 0x1074, Extend⟩, ⟨0x1082, 0x1082, Extend⟩, ⟨0x1083, 0x1084, Extend⟩,
  ⟨0x1085, 0x1086, Extend⟩, ⟨0x1087, 0x108C, Extend⟩, ⟨0x108D, 0x108D, Extend⟩, ⟨0x108F, 0x108F, Extend⟩,
  ⟨0x109A, 0x109C, Extend⟩, ⟨0x109D, 0x109D, Extend⟩, ⟨0x135D, 0x135F, Extend⟩, ⟨0x1712, 0x1714, Extend⟩,
  ⟨0x1732, 0x1734, Extend⟩, ⟨0x1752, 0x1753, Extend⟩, ⟨0x1772, 0x1773, Extend⟩, ⟨0x17B4, 0x17B5, Extend⟩,
  ⟨0x17B6, 0x17B6, Extend⟩, ⟨0x17B7, 0x17BD, Extend⟩, ⟨0x17BE, 0x17C5, Extend⟩, ⟨0x17C6, 0x17C6, Extend⟩,
  ⟨0x17C7, 0x17C8, Extend⟩, ⟨0x17C9, 0x17D3, Extend⟩, ⟨0x17DD, 0x17DD, Extend⟩, ⟨0x180B, 0x180D, Extend⟩,
  ⟨0x18A9, 0x18A9, Extend⟩, ⟨0x1920, 0x1922, Extend⟩, ⟨0x1923, 0x1926, Extend⟩, ⟨0x1927, 0x1928, Extend⟩,
  ⟨0x1929, 0x192B, Extend⟩, ⟨0x1930, 0x1931, Extend⟩, ⟨0x1932, 0x1932, Extend⟩, ⟨0x1933, 0x1938, Extend⟩,
  ⟨0x1939, 0x193B, Extend⟩, ⟨0x1A17, 0x1A18, Extend⟩, ⟨0x1A19, 0x1A1A, Extend⟩, ⟨0x1A1B, 0x1A1B, Extend⟩,
  ⟨0x1A55, 0x1A55, Extend⟩, ⟨0x1A56, 0x1A56, Extend⟩, ⟨0x1A57, 0x1A57, Extend⟩, ⟨0x1A58, 0x1A5E, Extend⟩,
  ⟨0x1A60, 0x1A60, Extend⟩, ⟨0x1A61, 0x1A61, Extend⟩, ⟨0x1A62, 0x1A62, Extend⟩, ⟨0x1A63, 0x1A64, Extend⟩,
  ⟨0x1A65, 0x1A6C, Extend⟩, ⟨0x1A6D, 0x1A72, Extend⟩, ⟨0x1A73, 0x1A7C, Extend⟩, ⟨0x1A7F, 0x1A7F, Extend⟩,
  ⟨0x1AB0, 0x1ABD, Extend⟩, ⟨0x1ABE, 0x1ABE, Extend⟩, ⟨0x1B00, 0x1B03, Extend⟩, ⟨0x1B04, 0x1B04, Extend⟩,
  ⟨0x1B34, 0x1B34, Extend⟩, ⟨0x1B35, 0x1B35, Extend⟩, ⟨0x1B36, 0x1B3A, Extend⟩, ⟨0x1B3B, 0x1B3B, Extend⟩,
  ⟨0x1B3C, 0x1B3C, Extend⟩, ⟨0x1B3D, 0x1B41, Extend⟩, ⟨0x1B42, 0x1B42, Extend⟩, ⟨0x1B43, 0x1B44, Extend⟩,
  ⟨0x1B6B, 0x1B73, Extend⟩, ⟨0x1B80, 0x1B81, Extend⟩, ⟨0x1B82, 0x1B82, Extend⟩, ⟨0x1BA1, 0x1BA1, Extend⟩,
  ⟨0x1BA2, 0x1BA5, Extend⟩, ⟨0x1BA6, 0x1BA7, Extend⟩, ⟨0x1BA8, 0x1BA9, Extend⟩, ⟨0x1BAA, 0x1BAA, Extend⟩,
  ⟨0x1BAB, 0x1BAD, Extend⟩, ⟨0x1BE6, 0x1BE6, Extend⟩, ⟨0x1BE7, 0x1BE7, Extend⟩, ⟨0x1BE8, 0x1BE9, Extend⟩,
  ⟨0x1BEA, 0x1BEC, Extend⟩, ⟨0x1BED, 0x1BED, Extend⟩, ⟨0x1BEE, 0x1BEE, Extend⟩, ⟨0x1BEF, 0x1BF1, Extend⟩,
  ⟨0x1BF2, 0x1BF3, Extend⟩, ⟨0x1C24, 0x1C2B, Extend⟩, ⟨0x1C2C, 0x1C33, Extend⟩, ⟨0x1C34, 0x1C35, Extend⟩,
  ⟨0x1C36, 0x1C37, Extend⟩, ⟨0x1CD0, 0x1CD2, Extend⟩, ⟨0x1CD4, 0x1CE0, Extend⟩, ⟨0x1CE1, 0x1CE1, Extend⟩,
  ⟨0x1CE2, 0x1CE8, Extend⟩, ⟨0x1CED, 0x1CED, Extend⟩, ⟨0x1CF2, 0x1CF3, Extend⟩, ⟨0x1CF4, 0x1CF4, Extend⟩,
  ⟨0x1CF8, 0x1CF9, Extend⟩, ⟨0x1DC0, 0x1DF5, Extend⟩, ⟨0x1DFC, 0x1DFF, Extend⟩, ⟨0x200C, 0x200D, Extend⟩,
  ⟨0x20D0, 0x20DC, Extend⟩, ⟨0x20DD, 0x20E0, Extend⟩, ⟨0x20E1, 0x20E1, Extend⟩, ⟨0x20E2, 0x20E4, Extend⟩,
  ⟨0x20E5, 0x20F0, Extend⟩, ⟨0x2CEF, 0x2CF1, Extend⟩, ⟨0x2D7F, 0x2D7F, Extend⟩, ⟨0x2DE0, 0x2DFF, Extend⟩,
  ⟨0x302A, 0x302D, Extend⟩, ⟨0x302E, 0x302F, Extend⟩, ⟨0x3099, 0x309A, Extend⟩, ⟨0xA66F, 0xA66F, Extend⟩,
  ⟨0xA670, 0xA672, Extend⟩, ⟨0xA674, 0xA67D, Extend⟩, ⟨0xA69E, 0xA69F, Extend⟩, ⟨0xA6F0, 0xA6F1, Extend⟩,
  ⟨0xA802, 0xA802, Extend⟩, ⟨0xA806, 0xA806, Extend⟩, ⟨0xA80B, 0xA80B, Extend⟩, ⟨0xA823, 0xA824, Extend⟩,
  ⟨0xA825, 0xA826, Extend⟩, ⟨0xA827, 0xA827, Extend⟩, ⟨0xA880, 0xA881, Extend⟩, ⟨0xA8B4, 0xA8C3, Extend⟩,
  ⟨0xA8C4, 0xA8C4, Extend⟩, ⟨0xA8E0, 0xA8F1, Extend⟩, ⟨0xA926, 0xA92D, Extend⟩, ⟨0xA947, 0xA951, Extend⟩,
  ⟨0xA952, 0xA953, Extend⟩, ⟨0xA980, 0xA982, Extend⟩, ⟨0xA983, 0xA983, Extend⟩, ⟨0xA9B3, 0xA9B3, Extend⟩,
  ⟨0xA9B4, 0xA9B5, Extend⟩, ⟨0xA9B6, 0xA9B9, Extend⟩, ⟨0xA9BA, 0xA9BB, Extend⟩, ⟨0xA9BC, 0xA9BC, Extend⟩,
  ⟨0xA9BD, 0xA9C0, Extend⟩, ⟨0xA9E5, 0xA9E5, Extend⟩, ⟨0xAA29, 0xAA2E, Extend⟩, ⟨0xAA2F, 0xAA30, Extend⟩,
  ⟨0xAA31, 0xAA32, Extend⟩, ⟨0xAA33, 0xAA34, Extend⟩, ⟨0xAA35, 0xAA36, Extend⟩, ⟨0xAA43, 0xAA43, Extend⟩,
  ⟨0xAA4C, 0xAA4C, Extend⟩, ⟨0xAA4D, 0xAA4D, Extend⟩, ⟨0xAA7B, 0xAA7B, Extend⟩, ⟨0xAA7C, 0xAA7C, Extend⟩,
  ⟨0xAA7D, 0xAA7D, Extend⟩, ⟨0xAAB0, 0xAAB0, Extend⟩, ⟨0xAAB2, 0xAAB4, Extend⟩, ⟨0xAAB7, 0xAAB8, Extend⟩,
  ⟨0xAABE, 0xAABF, Extend⟩, ⟨0xAAC1, 0xAAC1, Extend⟩, ⟨0xAAEB, 0xAAEB, Extend⟩, ⟨0xAAEC, 0xAAED, Extend⟩,
  ⟨0xAAEE, 0xAAEF, Extend⟩, ⟨0xAAF5, 0xAAF5, Extend⟩, ⟨0xAAF6, 0xAAF6, Extend⟩, ⟨0xABE3, 0xABE4, Extend⟩,
  ⟨0xABE5, 0xABE5, Extend⟩, ⟨0xABE6, 0xABE7, Extend⟩, ⟨0xABE8, 0xABE8, Extend⟩, ⟨0xABE9, 0xABEA, Extend⟩,
  ⟨0xABEC, 0xABEC, Extend⟩, ⟨0xABED, 0xABED, Extend⟩, ⟨0xFB1E, 0xFB1E, Extend⟩, ⟨0xFE00, 0xFE0F, Extend⟩,
  ⟨0xFE20, 0xFE2F, Extend⟩, ⟨0xFF9E, 0xFF9F, Extend⟩, ⟨0x101FD, 0x101FD, Extend⟩, ⟨0x102E0, 0x102E0, Extend⟩,
  ⟨0x10376, 0x1037A, Extend⟩, ⟨0x10A01, 0x10A03, Extend⟩, ⟨0x10A05, 0x10A06, Extend⟩, ⟨0x10A0C, 0x10A0F, Extend⟩,
  ⟨0x10A38, 0x10A3A, Extend⟩, ⟨0x10A3F, 0x10A3F, Extend⟩, ⟨0x10AE5, 0x10AE6, Extend⟩, ⟨0x11000, 0x11000, Extend⟩,
  ⟨0x11001, 0x11001, Extend⟩, ⟨0x11002, 0x11002, Extend⟩, ⟨0x11038, 0x11046, Extend⟩, ⟨0x1107F, 0x11081, Extend⟩,
  ⟨0x11082, 0x11082, Extend⟩, ⟨0x110B0, 0x110B2, Extend⟩, ⟨0x110B3, 0x110B6, Extend⟩, ⟨0x110B7, 0x110B8, Extend⟩,
  ⟨0x110B9, 0x110BA, Extend⟩, ⟨0x11100, 0x11102, Extend⟩, ⟨0x11127, 0x1112B, Extend⟩, ⟨0x1112C, 0x1112C, Extend⟩,
  ⟨0x1112D, 0x11134, Extend⟩, ⟨0x11173, 0x11173, Extend⟩, ⟨0x11180, 0x11181, Extend⟩, ⟨0x11182, 0x11182, Extend⟩,
  ⟨0x111B3, 0x111B5, Extend⟩, ⟨0x111B6, 0x111BE, Extend⟩, ⟨0x111BF, 0x111C0, Extend⟩, ⟨0x111CA, 0x111CC, Extend⟩,
  ⟨0x1122C, 0x1122E, Extend⟩, ⟨0x1122F, 0x11231, Extend⟩, ⟨0x11232, 0x11233, Extend⟩, ⟨0x11234, 0x11234, Extend⟩,
  ⟨0x11235, 0x11235, Extend⟩, ⟨0x11236, 0x11237, Extend⟩, ⟨0x112DF, 0x112DF, Extend⟩, ⟨0x112E0, 0x112E2, Extend⟩,
  ⟨0x112E3, 0x112EA, Extend⟩, ⟨0x11300, 0x11301, Extend⟩, ⟨0x11302, 0x11303, Extend⟩, ⟨0x1133C, 0x1133C, Extend⟩,
  ⟨0x1133E, 0x1133F, Extend⟩, ⟨0x11340, 0x11340, Extend⟩, ⟨0x11341, 0x11344, Extend⟩, ⟨0x11347, 0x11348, Extend⟩,
  ⟨0x1134B, 0x1134D, Extend⟩, ⟨0x11357, 0x11357, Extend⟩, ⟨0x11362, 0x11363, Extend⟩, ⟨0x11366, 0x1136C, Extend⟩,
  ⟨0x11370, 0x11374, Extend⟩, ⟨0x114B0, 0x114B2, Extend⟩, ⟨0x114B3, 0x114B8, Extend⟩, ⟨0x114B9, 0x114B9, Extend⟩,
  ⟨0x114BA, 0x114BA, Extend⟩, ⟨0x114BB, 0x114BE, Extend⟩, ⟨0x114BF, 0x114C0, Extend⟩, ⟨0x114C1, 0x114C1, Extend⟩,
  ⟨0x114C2, 0x114C3, Extend⟩, ⟨0x115AF, 0x115B1, Extend⟩, ⟨0x115B2, 0x115B5, Extend⟩, ⟨0x115B8, 0x115BB, Extend⟩,
  ⟨0x115BC, 0x115BD, Extend⟩, ⟨0x115BE, 0x115BE, Extend⟩, ⟨0x115BF, 0x115C0, Extend⟩, ⟨0x115DC, 0x115DD, Extend⟩,
  ⟨0x11630, 0x11632, Extend⟩, ⟨0x11633, 0x1163A, Extend⟩, ⟨0x1163B, 0x1163C, Extend⟩, ⟨0x1163D, 0x1163D, Extend⟩,
  ⟨0x1163E, 0x1163E, Extend⟩, ⟨0x1163F, 0x11640, Extend⟩, ⟨0x116AB, 0x116AB, Extend⟩, ⟨0x116AC, 0x116AC, Extend⟩,
  ⟨0x116AD, 0x116AD, Extend⟩, ⟨0x116AE, 0x116AF, Extend⟩, ⟨0x116B0, 0x116B5, Extend⟩, ⟨0x116B6, 0x116B6, Extend⟩,
  ⟨0x116B7, 0x116B7, Extend⟩, ⟨0x1171D, 0x1171F, Extend⟩, ⟨0x11720, 0x11721, Extend⟩, ⟨0x11722, 0x11725, Extend⟩,
  ⟨0x11726, 0x11726, Extend⟩, ⟨0x11727, 0x1172B, Extend⟩, ⟨0x16AF0, 0x16AF4, Extend⟩, ⟨0x16B30, 0x16B36, Extend⟩,
  ⟨0x16F51, 0x16F7E, Extend⟩, ⟨0x16F8F, 0x16F92, Extend⟩, ⟨0x1BC9D, 0x1BC9E, Extend⟩, ⟨0x1D165, 0x1D166, Extend⟩,
  ⟨0x1D167, 0x1D169, Extend⟩, ⟨0x1D16D, 0x1D172, Extend⟩, ⟨0x1D17B, 0x1D182, Extend⟩, ⟨0x1D185, 0x1D18B, Extend⟩,
  ⟨0x1D1AA, 0x1D1AD, Extend⟩, ⟨0x1D242, 0x1D244, Extend⟩, ⟨0x1DA00, 0x1DA36, Extend⟩, ⟨0x1DA3B, 0x1DA6C, Extend⟩,
  ⟨0x1DA75, 0x1DA75, Extend⟩, ⟨0x1DA84, 0x1DA84, Extend⟩, ⟨0x1DA9B, 0x1DA9F, Extend⟩, ⟨0x1DAA1, 0x1DAAF, Extend⟩,
  ⟨0x1E8D0, 0x1E8D6, Extend⟩, ⟨0xE0100, 0xE01EF, Extend⟩, ⟨0x1F1E6, 0x1F1FF, Regional_Indicator⟩, ⟨0x00AD, 0x00AD, Format⟩,
  ⟨0x0600, 0x0605, Format⟩, ⟨0x061C, 0x061C, Format⟩, ⟨0x06DD, 0x06DD, Format⟩, ⟨0x070F, 0x070F, Format⟩,
  ⟨0x180E, 0x180E, Format⟩, ⟨0x200E, 0x200F, Format⟩, ⟨0x202A, 0x202E, Format⟩, ⟨0x2060, 0x2064, Format⟩,
  ⟨0x2066, 0x206F, Format⟩, ⟨0xFEFF, 0xFEFF, Format⟩, ⟨0xFFF9, 0xFFFB, Format⟩, ⟨0x110BD, 0x110BD, Format⟩,
  ⟨0x1BCA0, 0x1BCA3, Format⟩, ⟨0x1D173, 0x1D17A, Format⟩, ⟨0xE0001, 0xE0001, Format⟩, ⟨0xE0020, 0xE007F, Format⟩,
  ⟨0x3031, 0x3035, Katakana⟩, ⟨0x309B, 0x309C, Katakana⟩, ⟨0x30A0, 0x30A0, Katakana⟩, ⟨0x30A1, 0x30FA, Katakana⟩,
  ⟨0x30FC, 0x30FE, Katakana⟩, ⟨0x30FF, 0x30FF, Katakana⟩, ⟨0x31F0, 0x31FF, Katakana⟩, ⟨0x32D0, 0x32FE, Katakana⟩,
  ⟨0x3300, 0x3357, Katakana⟩, ⟨0xFF66, 0xFF6F, Katakana⟩, ⟨0xFF70, 0xFF70, Katakana⟩, ⟨0xFF71, 0xFF9D, Katakana⟩,
  ⟨0x1B000, 0x1B000, Katakana⟩, ⟨0x0041, 0x005A, ALetter⟩, ⟨0x0061, 0x007A, ALetter⟩, ⟨0x00AA, 0x00AA, ALetter⟩,
  ⟨0x00B5, 0x00B5, ALetter⟩, ⟨0x00BA, 0x00BA, ALetter⟩, ⟨0x00C0, 0x00D6, ALetter⟩, ⟨0x00D8, 0x00F6, ALetter⟩,
  ⟨0x00F8, 0x01BA, ALetter⟩, ⟨0x01BB, 0x01BB, ALetter⟩, ⟨0x01BC, 0x01BF, ALetter⟩, ⟨0x01C0, 0x01C3, ALetter⟩,
  ⟨0x01C4, 0x0293, ALetter⟩, ⟨0x0294, 0x0294, ALetter⟩, ⟨0x0295, 0x02AF, ALetter⟩, ⟨0x02B0, 0x02C1, ALetter⟩,
  ⟨0x02C6, 0x02D1, ALetter⟩, ⟨0x02E0, 0x02E4, ALetter⟩, ⟨0x02EC, 0x02EC, ALetter⟩, ⟨0x02EE, 0x02EE, ALetter⟩,
  ⟨0x0370, 0x0373, ALetter⟩, ⟨0x0374, 0x0374, ALetter⟩, ⟨0x0376, 0x0377, ALetter⟩, ⟨0x037A, 0x037A, ALetter⟩,
  ⟨0x037B, 0x037D, ALetter⟩, ⟨0x037F, 0x037F, ALetter⟩, ⟨0x0386, 0x0386, ALetter⟩, ⟨0x0388, 0x038A, ALetter⟩,
  ⟨0x038C, 0x038C, ALetter⟩, ⟨0x038E, 0x03A1, ALetter⟩, ⟨0x03A3, 0x03F5, ALetter⟩, ⟨0x03F7, 0x0481, ALetter⟩,
  ⟨0x048A, 0x052F, ALetter⟩, ⟨0x0531, 0x0556, ALetter⟩, ⟨0x0559, 0x0559, ALetter⟩, ⟨0x0561, 0x0587, ALetter⟩,
  ⟨0x05F3, 0x05F3, ALetter⟩, ⟨0x0620, 0x063F, ALetter⟩, ⟨0x0640, 0x0640, ALetter⟩, ⟨0x0641, 0x064A, ALetter⟩,
  ⟨0x066E, 0x066F, ALetter⟩, ⟨0x0671, 0x06D3, ALetter⟩, ⟨0x06D5, 0x06D5, ALetter⟩, ⟨0x06E5, 0x06E6, ALetter⟩,
  ⟨0x06EE, 0x06EF, ALetter⟩, ⟨0x06FA, 0x06FC, ALetter⟩, ⟨0x06FF, 0x06FF, ALetter⟩, ⟨0x0710, 0x0710, ALetter⟩,
  ⟨0x0712, 0x072F, ALetter⟩, ⟨0x074D, 0x07A5, ALetter⟩, ⟨0x07B1, 0x07B1, ALetter⟩, ⟨0x07CA, 0x07EA, ALetter⟩,
  ⟨0x07F4, 0x07F5, ALetter⟩, ⟨0x07FA, 0x07FA, ALetter⟩, ⟨0x0800, 0x0815, ALetter⟩, ⟨0x081A, 0x081A, ALetter⟩,
  ⟨0x0824, 0x0824, ALetter⟩, ⟨0x0828, 0x0828, ALetter⟩, ⟨0x0840, 0x0858, ALetter⟩, ⟨0x08A0, 0x08B4, ALetter⟩,
  ⟨0x0904, 0x0939, ALetter⟩, ⟨0x093D, 0x093D, ALetter⟩, ⟨0x0950, 0x0950, ALetter⟩, ⟨0x0958, 0x0961, ALetter⟩,
  ⟨0x0971, 0x0971, ALetter⟩, ⟨0x0972, 0x0980, ALetter⟩, ⟨0x0985, 0x098C, ALetter⟩, ⟨0x098F, 0x0990, ALetter⟩,
  ⟨0x0993, 0x09A8, ALetter⟩, ⟨0x09AA, 0x09B0, ALetter⟩, ⟨0x09B2, 0x09B2, ALetter⟩, ⟨0x09B6, 0x09B9, ALetter⟩,
  ⟨0x09BD, 0x09BD, ALetter⟩, ⟨0x09CE, 0x09CE, ALetter⟩, ⟨0x09DC, 0x09DD, ALetter⟩, ⟨0x09DF, 0x09E1, ALetter⟩,
  ⟨0x09F0, 0x09F1, ALetter⟩, ⟨0x0A05, 0x0A0A, ALetter⟩, ⟨0x0A0F, 0x0A10, ALetter⟩, ⟨0x0A13, 0x0A28, ALetter⟩,
  ⟨0x0A2A, 0x0A30, ALetter⟩, ⟨0x0A32, 0x0A33, ALetter⟩, ⟨0x0A35, 0x0A36, ALetter⟩, ⟨0x0A38, 0x0A39, ALetter⟩,
  ⟨0x0A59, 0x0A5C, ALetter⟩, ⟨0x0A5E, 0x0A5E, ALetter⟩, ⟨0x0A72, 0x0A74, ALetter⟩, ⟨0x0A85, 0x0A8D, ALetter⟩,
  ⟨0x0A8F, 0x0A91, ALetter⟩, ⟨0x0A93, 0x0AA8, ALetter⟩, ⟨0x0AAA, 0x0AB0, ALetter⟩, ⟨0x0AB2, 0x0AB3, ALetter⟩,
  ⟨0x0AB5, 0x0AB9, ALetter⟩, ⟨0x0ABD, 0x0ABD, ALetter⟩, ⟨0x0AD0, 0x0AD0, ALetter⟩, ⟨0x0AE0, 0x0AE1, ALetter⟩,
  ⟨0x0AF9, 0x0AF9, ALetter⟩, ⟨0x0B05, 0x0B0C, ALetter⟩, ⟨0x0B0F, 0x0B10, ALetter⟩, ⟨0x0B13, 0x0B28, ALetter⟩,
  ⟨0x0B2A, 0x0B30, ALetter⟩, ⟨0x0B32, 0x0B33, ALetter⟩, ⟨0x0B35, 0x0B39, ALetter⟩, ⟨0x0B3D, 0x0B3D, ALetter⟩,
  ⟨0x0B5C, 0x0B5D, ALetter⟩, ⟨0x0B5F, 0x0B61, ALetter⟩, ⟨0x0B71, 0x0B71, ALetter⟩, ⟨0x0B83, 0x0B83, ALetter⟩,
  ⟨0x0B85, 0x0B8A, ALetter⟩, ⟨0x0B8E, 0x0B90, ALetter⟩, ⟨0x0B92, 0x0B95, ALetter⟩, ⟨0x0B99, 0x0B9A, ALetter⟩,
  ⟨0x0B9C, 0x0B9C, ALetter⟩, ⟨0x0B9E, 0x0B9F, ALetter⟩, ⟨0x0BA3, 0x0BA4, ALetter⟩, ⟨0x0BA8, 0x0BAA, ALetter⟩,
  ⟨0x0BAE, 0x0BB9, ALetter⟩, ⟨0x0BD0, 0x0BD0, ALetter⟩, ⟨0x0C05, 0x0C0C, ALetter⟩, ⟨0x0C0E, 0x0C10, ALetter⟩,
  ⟨0x0C12, 0x0C28, ALetter⟩, ⟨0x0C2A, 0x0C39, ALetter⟩, ⟨0x0C3D, 0x0C3D, ALetter⟩, ⟨0x0C58, 0x0C5A, ALetter⟩,
  ⟨0x0C60, 0x0C61, ALetter⟩, ⟨0x0C85, 0x0C8C, ALetter⟩, ⟨0x0C8E, 0x0C90, ALetter⟩, ⟨0x0C92, 0x0CA8, ALetter⟩,
  ⟨0x0CAA, 0x0CB3, ALetter⟩, ⟨0x0CB5, 0x0CB9, ALetter⟩, ⟨0x0CBD, 0x0CBD, ALetter⟩, ⟨0x0CDE, 0x0CDE, ALetter⟩,
  ⟨0x0CE0, 0x0CE1, ALetter⟩, ⟨0x0CF1, 0x0CF2, ALetter⟩, ⟨0x0D05, 0x0D0C, ALetter⟩, ⟨0x0D0E, 0x0D10, ALetter⟩,
  ⟨0x0D12, 0x0D3A, ALetter⟩, ⟨0x0D3D, 0x0D3D, ALetter⟩, ⟨0x0D4E, 0x0D4E, ALetter⟩, ⟨0x0D5F, 0x0D61, ALetter⟩,
  ⟨0x0D7A, 0x0D7F, ALetter⟩, ⟨0x0D85, 0x0D96, ALetter⟩, ⟨0x0D9A, 0x0DB1, ALetter⟩, ⟨0x0DB3, 0x0DBB, ALetter⟩,
  ⟨0x0DBD, 0x0DBD, ALetter⟩, ⟨0x0DC0, 0x0DC6, ALetter⟩, ⟨0x0F00, 0x0F00, ALetter⟩, ⟨0x0F40, 0x0F47, ALetter⟩,
  ⟨0x0F49, 0x0F6C, ALetter⟩, ⟨0x0F88, 0x0F8C, ALetter⟩, ⟨0x10A0, 0x10C5, ALetter⟩, ⟨0x10C7, 0x10C7, ALetter⟩,
  ⟨0x10CD, 0x10CD, ALetter⟩, ⟨0x10D0, 0x10FA, ALetter⟩, ⟨0x10FC, 0x10FC, ALetter⟩, ⟨0x10FD, 0x1248, ALetter⟩,
  ⟨0x124A, 0x124D, ALetter⟩, ⟨0x1250, 0x1256, ALetter⟩, ⟨0x1258, 0x1258, ALetter⟩, ⟨0x125A, 0x125D, ALetter⟩,
  ⟨0x1260, 0x1288, ALetter⟩, ⟨0x128A, 0x128D, ALetter⟩, ⟨0x1290, 0x12B0, ALetter⟩, ⟨0x12B2, 0x12B5, ALetter⟩,
  ⟨0x12B8, 0x12BE, ALetter⟩, ⟨0x12C0, 0x12C0, ALetter⟩, ⟨0x12C2, 0x12C5, ALetter⟩, ⟨0x12C8, 0x12D6, ALetter⟩,
  ⟨0x12D8, 0x1310, ALetter⟩, ⟨0x1312, 0x1315, ALetter⟩, ⟨0x1318, 0x135A, ALetter⟩, ⟨0x1380, 0x138F, ALetter⟩,
  ⟨0x13A0, 0x13F5, ALetter⟩, ⟨0x13F8, 0x13FD, ALetter⟩, ⟨0x1401, 0x166C, ALetter⟩, ⟨0x166F, 0x167F, ALetter⟩,
  ⟨0x1681, 0x169A, ALetter⟩, ⟨0x16A0, 0x16EA, ALetter⟩, ⟨0x16EE, 0x16F0, ALetter⟩, ⟨0x16F1, 0x16F8, ALetter⟩,
  ⟨0x1700, 0x170C, ALetter⟩, ⟨0x170E, 0x1711, ALetter⟩, ⟨0x1720, 0x1731, ALetter⟩, ⟨0x1740, 0x1751, ALetter⟩,
  ⟨0x1760, 0x176C, ALetter⟩, ⟨0x176E, 0x1770, ALetter⟩, ⟨0x1820, 0x1842, ALetter⟩, ⟨0x1843, 0x1843, ALetter⟩,
  ⟨0x1844, 0x1877, ALetter⟩, ⟨0x1880, 0x18A8, ALetter⟩, ⟨0x18AA, 0x18AA, ALetter⟩, ⟨0x18B0, 0x18F5, ALetter⟩,
  ⟨0x1900, 0x191E, ALetter⟩, ⟨0x1A00, 0x1A16, ALetter⟩, ⟨0x1B05, 0x1B33, ALetter⟩, ⟨0x1B45, 0x1B4B, ALetter⟩,
  ⟨0x1B83, 0x1BA0, ALetter⟩, ⟨0x1BAE, 0x1BAF, ALetter⟩, ⟨0x1BBA, 0x1BE5, ALetter⟩, ⟨0x1C00, 0x1C23, ALetter⟩,
  ⟨0x1C4D, 0x1C4F, ALetter⟩, ⟨0x1C5A, 0x1C77, ALetter⟩, ⟨0x1C78, 0x1C7D, ALetter⟩, ⟨0x1CE9, 0x1CEC, ALetter⟩,
  ⟨0x1CEE, 0x1CF1, ALetter⟩, ⟨0x1CF5, 0x1CF6, ALetter⟩, ⟨0x1D00, 0x1D2B, ALetter⟩, ⟨0x1D2C, 0x1D6A, ALetter⟩,
  ⟨0x1D6B, 0x1D77, ALetter⟩, ⟨0x1D78, 0x1D78, ALetter⟩, ⟨0x1D79, 0x1D9A, ALetter⟩, ⟨0x1D9B, 0x1DBF, ALetter⟩,
  ⟨0x1E00, 0x1F15, ALetter⟩, ⟨0x1F18, 0x1F1D, ALetter⟩, ⟨0x1F20, 0x1F45, ALetter⟩, ⟨0x1F48, 0x1F4D, ALetter⟩,
  ⟨0x1F50, 0x1F57, ALetter⟩, ⟨0x1F59, 0x1F59, ALetter⟩, ⟨0x1F5B, 0x1F5B, ALetter⟩, ⟨0x1F5D, 0x1F5D, ALetter⟩,
  ⟨0x1F5F, 0x1F7D, ALetter⟩, ⟨0x1F80, 0x1FB4, ALetter⟩, ⟨0x1FB6, 0x1FBC, ALetter⟩, ⟨0x1FBE, 0x1FBE, ALetter⟩,
  ⟨0x1FC2, 0x1FC4, ALetter⟩, ⟨0x1FC6, 0x1FCC, ALetter⟩, ⟨0x1FD0, 0x1FD3, ALetter⟩, ⟨0x1FD6, 0x1FDB, ALetter⟩,
  ⟨0x1FE0, 0x1FEC, ALetter⟩, ⟨0x1FF2, 0x1FF4, ALetter⟩, ⟨0x1FF6, 0x1FFC, ALetter⟩, ⟨0x2071, 0x2071, ALetter⟩,
  ⟨0x207F, 0x207F, ALetter⟩, ⟨0x2090, 0x209C, ALetter⟩, ⟨0x2102, 0x2102, ALetter⟩, ⟨0x2107, 0x2107, ALetter⟩,
  ⟨0x210A, 0x2113, ALetter⟩, ⟨0x2115, 0x2115, ALetter⟩, ⟨0x2119, 0x211D, ALetter⟩, ⟨0x2124, 0x2124, ALetter⟩,
  ⟨0x2126, 0x2126, ALetter⟩, ⟨0x2128, 0x2128, ALetter⟩, ⟨0x212A, 0x212D, ALetter⟩, ⟨0x212F, 0x2134, ALetter⟩,
  ⟨0x2135, 0x2138, ALetter⟩, ⟨0x2139, 0x2139, ALetter⟩, ⟨0x213C, 0x213F, ALetter⟩, ⟨0x2145, 0x2149, ALetter⟩,
  ⟨0x214E, 0x214E, ALetter⟩, ⟨0x2160, 0x2182, ALetter⟩, ⟨0x2183, 0x2184, ALetter⟩, ⟨0x2185, 0x2188, ALetter⟩,
  ⟨0x24B6, 0x24E9, ALetter⟩, ⟨0x2C00, 0x2C2E, ALetter⟩, ⟨0x2C30, 0x2C5E, ALetter⟩, ⟨0x2C60, 0x2C7B, ALetter⟩,
  ⟨0x2C7C, 0x2C7D, ALetter⟩, ⟨0x2C7E, 0x2CE4, ALetter⟩, ⟨0x2CEB, 0x2CEE, ALetter⟩, ⟨0x2CF2, 0x2CF3, ALetter⟩,
  ⟨0x2D00, 0x2D25, ALetter⟩, ⟨0x2D27, 0x2D27, ALetter⟩, ⟨0x2D2D, 0x2D2D, ALetter⟩, ⟨0x2D30, 0x2D67, ALetter⟩,
  ⟨0x2D6F, 0x2D6F, ALetter⟩, ⟨0x2D80, 0x2D96, ALetter⟩, ⟨0x2DA0, 0x2DA6, ALetter⟩, ⟨0x2DA8, 0x2DAE, ALetter⟩,
  ⟨0x2DB0, 0x2DB6, ALetter⟩, ⟨0x2DB8, 0x2DBE, ALetter⟩, ⟨0x2DC0, 0x2DC6, ALetter⟩, ⟨0x2DC8, 0x2DCE, ALetter⟩,
  ⟨0x2DD0, 0x2DD6, ALetter⟩, ⟨0x2DD8, 0x2DDE, ALetter⟩, ⟨0x2E2F, 0x2E2F, ALetter⟩, ⟨0x3005, 0x3005, ALetter⟩,
  ⟨0x303B, 0x303B, ALetter⟩, ⟨0x303C, 0x303C, ALetter⟩, ⟨0x3105, 0x312D, ALetter⟩, ⟨0x3131, 0x318E, ALetter⟩,
  ⟨0x31A0, 0x31BA, ALetter⟩, ⟨0xA000, 0xA014, ALetter⟩, ⟨0xA015, 0xA015, ALetter⟩, ⟨0xA016, 0xA48C, ALetter⟩,
  ⟨0xA4D0, 0xA4F7, ALetter⟩, ⟨0xA4F8, 0xA4FD, ALetter⟩, ⟨0xA500, 0xA60B, ALetter⟩, ⟨0xA60C, 0xA60C, ALetter⟩,
  ⟨0xA610, 0xA61F, ALetter⟩, ⟨0xA62A, 0xA62B, ALetter⟩, ⟨0xA640, 0xA66D, ALetter⟩, ⟨0xA66E, 0xA66E, ALetter⟩,
  ⟨0xA67F, 0xA67F, ALetter⟩, ⟨0xA680, 0xA69B, ALetter⟩, ⟨0xA69C, 0xA69D, ALetter⟩, ⟨0xA6A0, 0xA6E5, ALetter⟩,
  ⟨0xA6E6, 0xA6EF, ALetter⟩, ⟨0xA717, 0xA71F, ALetter⟩, ⟨0xA722, 0xA76F, ALetter⟩, ⟨0xA770, 0xA770, ALetter⟩,
  ⟨0xA771, 0xA787, ALetter⟩, ⟨0xA788, 0xA788, ALetter⟩, ⟨0xA78B, 0xA78E, ALetter⟩, ⟨0xA78F, 0xA78F, ALetter⟩,
  ⟨0xA790, 0xA7AD, ALetter⟩, ⟨0xA7B0, 0xA7B7, ALetter⟩, ⟨0xA7F7, 0xA7F7, ALetter⟩, ⟨0xA7F8, 0xA7F9, ALetter⟩,
  ⟨0xA7FA, 0xA7FA, ALetter⟩, ⟨0xA7FB, 0xA801, ALetter⟩, ⟨0xA803, 0xA805, ALetter⟩, ⟨0xA807, 0xA80A, ALetter⟩,
  ⟨0xA80C, 0xA822, ALetter⟩, ⟨0xA840, 0xA873, ALetter⟩, ⟨0xA882, 0xA8B3, ALetter⟩, ⟨0xA8F2, 0xA8F7, ALetter⟩,
  ⟨0xA8FB, 0xA8FB, ALetter⟩, ⟨0xA8FD, 0xA8FD, ALetter⟩, ⟨0xA90A, 0xA925, ALetter⟩, ⟨0xA930, 0xA946, ALetter⟩,
  ⟨0xA960, 0xA97C, ALetter⟩, ⟨0xA984, 0xA9B2, ALetter⟩, ⟨0xA9CF, 0xA9CF, ALetter⟩, ⟨0xAA00, 0xAA28, ALetter⟩,
  ⟨0xAA40, 0xAA42, ALetter⟩, ⟨0xAA44, 0xAA4B, ALetter⟩, ⟨0xAAE0, 0xAAEA, ALetter⟩, ⟨0xAAF2, 0xAAF2, ALetter⟩,
  ⟨0xAAF3, 0xAAF4, ALetter⟩, ⟨0xAB01, 0xAB06, ALetter⟩, ⟨0xAB09, 0xAB0E, ALetter⟩, ⟨0xAB11, 0xAB16, ALetter⟩,
  ⟨0xAB20, 0xAB26, ALetter⟩, ⟨0xAB28, 0xAB2E, ALetter⟩, ⟨0xAB30, 0xAB5A, ALetter⟩, ⟨0xAB5C, 0xAB5F, ALetter⟩,
  ⟨0xAB60, 0xAB65, ALetter⟩, ⟨0xAB70, 0xABBF, ALetter⟩, ⟨0xABC0, 0xABE2, ALetter⟩, ⟨0xAC00, 0xD7A3, ALetter⟩,
  ⟨0xD7B0, 0xD7C6, ALetter⟩, ⟨0xD7CB, 0xD7FB, ALetter⟩, ⟨0xFB00, 0xFB06, ALetter⟩, ⟨0xFB13, 0xFB17, ALetter⟩,
  ⟨0xFB50, 0xFBB1, ALetter⟩, ⟨0xFBD3, 0xFD3D, ALetter⟩, ⟨0xFD50, 0xFD8F, ALetter⟩, ⟨0xFD92, 0xFDC7, ALetter⟩,
  ⟨0xFDF0, 0xFDFB, ALetter⟩, ⟨0xFE70, 0xFE74, ALetter⟩, ⟨0xFE76, 0xFEFC, ALetter⟩, ⟨0xFF21, 0xFF3A, ALetter⟩,
  ⟨0xFF41, 0xFF5A, ALetter⟩, ⟨0xFFA0, 0xFFBE, ALetter⟩, ⟨0xFFC2, 0xFFC7, ALetter⟩, ⟨0xFFCA, 0xFFCF, ALetter⟩,
  ⟨0xFFD2, 0xFFD7, ALetter⟩, ⟨0xFFDA, 0xFFDC, ALetter⟩, ⟨0x10000, 0x1000B, ALetter⟩, ⟨0x1000D, 0x10026, ALetter⟩,
  ⟨0x10028, 0x1003A, ALetter⟩, ⟨0x1003C, 0x1003D, ALetter⟩, ⟨0x1003F, 0x1004D, ALetter⟩, ⟨0x10050, 0x1005D, ALetter⟩,
  ⟨0x10080, 0x100FA, ALetter⟩, ⟨0x10140, 0x10174, ALetter⟩, ⟨0x10280, 0x1029C, ALetter⟩, ⟨0x102A0, 0x102D0, ALetter⟩,
  ⟨0x10300, 0x1031F, ALetter⟩, ⟨0x10330, 0x10340, ALetter⟩, ⟨0x10341, 0x10341, ALetter⟩, ⟨0x10342, 0x10349, ALetter⟩,
  ⟨0x1034A, 0x1034A, ALetter⟩, ⟨0x10350, 0x10375, ALetter⟩, ⟨0x10380, 0x1039D, ALetter⟩, ⟨0x103A0, 0x103C3, ALetter⟩,
  ⟨0x103C8, 0x103CF, ALetter⟩, ⟨0x103D1, 0x103D5, ALetter⟩, ⟨0x10400, 0x1044F, ALetter⟩, ⟨0x10450, 0x1049D, ALetter⟩,
  ⟨0x10500, 0x10527, ALetter⟩, ⟨0x10530, 0x10563, ALetter⟩, ⟨0x10600, 0x10736, ALetter⟩, ⟨0x10740, 0x10755, ALetter⟩,
  ⟨0x10760, 0x10767, ALetter⟩, ⟨0x10800, 0x10805, ALetter⟩, ⟨0x10808, 0x10808, ALetter⟩, ⟨0x1080A, 0x10835, ALetter⟩,
  ⟨0x10837, 0x10838, ALetter⟩, ⟨0x1083C, 0x1083C, ALetter⟩, ⟨0x1083F, 0x10855, ALetter⟩, ⟨0x10860, 0x10876, ALetter⟩,
  ⟨0x10880, 0x1089E, ALetter⟩, ⟨0x108E0, 0x108F2, ALetter⟩, ⟨0x108F4, 0x108F5, ALetter⟩, ⟨0x10900, 0x10915, ALetter⟩,
  ⟨0x10920, 0x10939, ALetter⟩, ⟨0x10980, 0x109B7, ALetter⟩, ⟨0x109BE, 0x109BF, ALetter⟩, ⟨0x10A00, 0x10A00, ALetter⟩,
  ⟨0x10A10, 0x10A13, ALetter⟩, ⟨0x10A15, 0x10A17, ALetter⟩, ⟨0x10A19, 0x10A33, ALetter⟩, ⟨0x10A60, 0x10A7C, ALetter⟩,
  ⟨0x10A80, 0x10A9C, ALetter⟩, ⟨0x10AC0, 0x10AC7, ALetter⟩, ⟨0x10AC9, 0x10AE4, ALetter⟩, ⟨0x10B00, 0x10B35, ALetter⟩,
  ⟨0x10B40, 0x10B55, ALetter⟩, ⟨0x10B60, 0x10B72, ALetter⟩, ⟨0x10B80, 0x10B91, ALetter⟩, ⟨0x10C00, 0x10C48, ALetter⟩,
  ⟨0x10C80, 0x10CB2, ALetter⟩, ⟨0x10CC0, 0x10CF2, ALetter⟩, ⟨0x11003, 0x11037, ALetter⟩, ⟨0x11083, 0x110AF, ALetter⟩,
  ⟨0x110D0, 0x110E8, ALetter⟩, ⟨0x11103, 0x11126, ALetter⟩, ⟨0x11150, 0x11172, ALetter⟩, ⟨0x11176, 0x11176, ALetter⟩,
  ⟨0x11183, 0x111B2, ALetter⟩, ⟨0x111C1, 0x111C4, ALetter⟩, ⟨0x111DA, 0x111DA, ALetter⟩, ⟨0x111DC, 0x111DC, ALetter⟩,
  ⟨0x11200, 0x11211, ALetter⟩, ⟨0x11213, 0x1122B, ALetter⟩, ⟨0x11280, 0x11286, ALetter⟩, ⟨0x11288, 0x11288, ALetter⟩,
  ⟨0x1128A, 0x1128D, ALetter⟩, ⟨0x1128F, 0x1129D, ALetter⟩, ⟨0x1129F, 0x112A8, ALetter⟩, ⟨0x112B0, 0x112DE, ALetter⟩,
  ⟨0x11305, 0x1130C, ALetter⟩, ⟨0x1130F, 0x11310, ALetter⟩, ⟨0x11313, 0x11328, ALetter⟩, ⟨0x1132A, 0x11330, ALetter⟩,
  ⟨0x11332, 0x11333, ALetter⟩, ⟨0x11335, 0x11339, ALetter⟩, ⟨0x1133D, 0x1133D, ALetter⟩, ⟨0x11350, 0x11350, ALetter⟩,
  ⟨0x1135D, 0x11361, ALetter⟩, ⟨0x11480, 0x114AF, ALetter⟩, ⟨0x114C4, 0x114C5, ALetter⟩, ⟨0x114C7, 0x114C7, ALetter⟩,
  ⟨0x11580, 0x115AE, ALetter⟩, ⟨0x115D8, 0x115DB, ALetter⟩, ⟨0x11600, 0x1162F, ALetter⟩, ⟨0x11644, 0x11644, ALetter⟩,
  ⟨0x11680, 0x116AA, ALetter⟩, ⟨0x118A0, 0x118DF, ALetter⟩, ⟨0x118FF, 0x118FF, ALetter⟩, ⟨0x11AC0, 0x11AF8, ALetter⟩,
  ⟨0x12000, 0x12399, ALetter⟩, ⟨0x12400, 0x1246E, ALetter⟩, ⟨0x12480, 0x12543, ALetter⟩, ⟨0x13000, 0x1342E, ALetter⟩,
  ⟨0x14400, 0x14646, ALetter⟩, ⟨0x16800, 0x16A38, ALetter⟩, ⟨0x16A40, 0x16A5E, ALetter⟩, ⟨0x16AD0, 0x16AED, ALetter⟩,
  ⟨0x16B00, 0x16B2F, ALetter⟩, ⟨0x16B40, 0x16B43, ALetter⟩, ⟨0x16B63, 0x16B77, ALetter⟩, ⟨0x16B7D, 0x16B8F, ALetter⟩,
  ⟨0x16F00, 0x16F44, ALetter⟩, ⟨0x16F50, 0x16F50, ALetter⟩, ⟨0x16F93, 0x16F9F, ALetter⟩, ⟨0x1BC00, 0x1BC6A, ALetter⟩,
  ⟨0x1BC70, 0x1BC7C, ALetter⟩, ⟨0x1BC80, 0x1BC88, ALetter⟩, ⟨0x1BC90, 0x1BC99, ALetter⟩, ⟨0x1D400, 0x1D454, ALetter⟩,
  ⟨0x1D456, 0x1D49C, ALetter⟩, ⟨0x1D49E, 0x1D49F, ALetter⟩, ⟨0x1D4A2, 0x1D4A2, ALetter⟩, ⟨0x1D4A5, 0x1D4A6, ALetter⟩,
  ⟨0x1D4A9, 0x1D4AC, ALetter⟩, ⟨0x1D4AE, 0x1D4B9, ALetter⟩, ⟨0x1D4BB, 0x1D4BB, ALetter⟩, ⟨0x1D4BD, 0x1D4C3, ALetter⟩,
  ⟨0x1D4C5, 0x1D505, ALetter⟩, ⟨0x1D507, 0x1D50A, ALetter⟩, ⟨0x1D50D, 0x1D514, ALetter⟩, ⟨0x1D516, 0x1D51C, ALetter⟩,
  ⟨0x1D51E, 0x1D539, ALetter⟩, ⟨0x1D53B, 0x1D53E, ALetter⟩, ⟨0x1D540, 0x1D544, ALetter⟩, ⟨0x1D546, 0x1D546, ALetter⟩,
  ⟨0x1D54A, 0x1D550, ALetter⟩, ⟨0x1D552, 0x1D6A5, ALetter⟩, ⟨0x1D6A8, 0x1D6C0, ALetter⟩, ⟨0x1D6C2, 0x1D6DA, ALetter⟩,
  ⟨0x1D6DC, 0x1D6FA, ALetter⟩, ⟨0x1D6FC, 0x1D714, ALetter⟩, ⟨0x1D716, 0x1D734, ALetter⟩, ⟨0x1D736, 0x1D74E, ALetter⟩,
  ⟨0x1D750, 0x1D76E, ALetter⟩, ⟨0x1D770, 0x1D788, ALetter⟩, ⟨0x1D78A, 0x1D7A8, ALetter⟩, ⟨0x1D7AA, 0x1D7C2, ALetter⟩,
  ⟨0x1D7C4, 0x1D7CB, ALetter⟩, ⟨0x1E800, 0x1E8C4, ALetter⟩, ⟨0x1EE00, 0x1EE03, ALetter⟩, ⟨0x1EE05, 0x1EE1F, ALetter⟩,
  ⟨0x1EE21, 0x1EE22, ALetter⟩, ⟨0x1EE24, 0x1EE24, ALetter⟩, ⟨0x1EE27, 0x1EE27, ALetter⟩, ⟨0x1EE29, 0x1EE32, ALetter⟩,
  ⟨0x1EE34, 0x1EE37, ALetter⟩, ⟨0x1EE39, 0x1EE39, ALetter⟩, ⟨0x1EE3B, 0x1EE3B, ALetter⟩, ⟨0x1EE42, 0x1EE42, ALetter⟩,
  ⟨0x1EE47, 0x1EE47, ALetter⟩, ⟨0x1EE49, 0x1EE49, ALetter⟩, ⟨0x1EE4B, 0x1EE4B, ALetter⟩, ⟨0x1EE4D, 0x1EE4F, ALetter⟩,
  ⟨0x1EE51, 0x1EE52, ALetter⟩, ⟨0x1EE54, 0x1EE54, ALetter⟩, ⟨0x1EE57, 0x1EE57, ALetter⟩, ⟨0x1EE59, 0x1EE59, ALetter⟩,
  ⟨0x1EE5B, 0x1EE5B, ALetter⟩, ⟨0x1EE5D, 0x1EE5D, ALetter⟩, ⟨0x1EE5F, 0x1EE5F, ALetter⟩, ⟨0x1EE61, 0x1EE62, ALetter⟩,
  ⟨0x1EE64, 0x1EE64, ALetter⟩, ⟨0x1EE67, 0x1EE6A, ALetter⟩, ⟨0x1EE6C, 0x1EE72, ALetter⟩, ⟨0x1EE74, 0x1EE77, ALetter⟩,
  ⟨0x1EE79, 0x1EE7C, ALetter⟩, ⟨0x1EE7E, 0x1EE7E, ALetter⟩, ⟨0x1EE80, 0x1EE89, ALetter⟩, ⟨0x1EE8B, 0x1EE9B, ALetter⟩,
  ⟨0x1EEA1, 0x1EEA3, ALetter⟩, ⟨0x1EEA5, 0x1EEA9, ALetter⟩, ⟨0x1EEAB, 0x1EEBB, ALetter⟩, ⟨0x1F130, 0x1F149, ALetter⟩,
  ⟨0x1F150, 0x1F169, ALetter⟩, ⟨0x1F170, 0x1F189, ALetter⟩, ⟨0x003A, 0x003A, MidLetter⟩, ⟨0x00B7, 0x00B7, MidLetter⟩,
  ⟨0x02D7, 0x02D7, MidLetter⟩, ⟨0x0387, 0x0387, MidLetter⟩, ⟨0x05F4, 0x05F4, MidLetter⟩, ⟨0x2027, 0x2027, MidLetter⟩,
  ⟨0xFE13, 0xFE13, MidLetter⟩, ⟨0xFE55, 0xFE55, MidLetter⟩, ⟨0xFF1A, 0xFF1A, MidLetter⟩, ⟨0x002C, 0x002C, MidNum⟩,
  ⟨0x003B, 0x003B, MidNum⟩, ⟨0x037E, 0x037E, MidNum⟩, ⟨0x0589, 0x0589, MidNum⟩, ⟨0x060C, 0x060D, MidNum⟩,
  ⟨0x066C, 0x066C, MidNum⟩, ⟨0x07F8, 0x07F8, MidNum⟩, ⟨0x2044, 0x2044, MidNum⟩, ⟨0xFE10, 0xFE10, MidNum⟩,
  ⟨0xFE14, 0xFE14, MidNum⟩, ⟨0xFE50, 0xFE50, MidNum⟩, ⟨0xFE54, 0xFE54, MidNum⟩, ⟨0xFF0C, 0xFF0C, MidNum⟩,
  ⟨0xFF1B, 0xFF1B, MidNum⟩, ⟨0x002E, 0x002E, MidNumLet⟩, ⟨0x2018, 0x2018, MidNumLet⟩, ⟨0x2019, 0x2019, MidNumLet⟩,
  ⟨0x2024, 0x2024, MidNumLet⟩, ⟨0xFE52, 0xFE52, MidNumLet⟩, ⟨0xFF07, 0xFF07, MidNumLet⟩, ⟨0xFF0E, 0xFF0E, MidNumLet⟩,
  ⟨0x0030, 0x0039, Numeric⟩, ⟨0x0660, 0x0669, Numeric⟩, ⟨0x066B, 0x066B, Numeric⟩, ⟨0x06F0, 0x06F9, Numeric⟩,
  ⟨0x07C0, 0x07C9, Numeric⟩, ⟨0x0966, 0x096F, Numeric⟩, ⟨0x09E6, 0x09EF, Numeric⟩, ⟨0x0A66, 0x0A6F, Numeric⟩,
  ⟨0x0AE6, 0x0AEF, Numeric⟩, ⟨0x0B66, 0x0B6F, Numeric⟩, ⟨0x0BE6, 0x0BEF, Numeric⟩, ⟨0x0C66, 0x0C6F, Numeric⟩,
  ⟨0x0CE6, 0x0CEF, Numeric⟩, ⟨0x0D66, 0x0D6F, Numeric⟩, ⟨0x0DE6, 0x0DEF, Numeric⟩, ⟨0x0E50, 0x0E59, Numeric⟩,
  ⟨0x0ED0, 0x0ED9, Numeric⟩, ⟨0x0F20, 0x0F29, Numeric⟩, ⟨0x1040, 0x1049, Numeric⟩, ⟨0x1090, 0x1099, Numeric⟩,
  ⟨0x17E0, 0x17E9, Numeric⟩, ⟨0x1810, 0x1819, Numeric⟩, ⟨0x1946, 0x194F, Numeric⟩, ⟨0x19D0, 0x19D9, Numeric⟩,
  ⟨0x1A80, 0x1A89, Numeric⟩, ⟨0x1A90, 0x1A99, Numeric⟩, ⟨0x1B50, 0x1B59, Numeric⟩, ⟨0x1BB0, 0x1BB9, Numeric⟩,
  ⟨0x1C40, 0x1C49, Numeric⟩, ⟨0x1C50, 0x1C59, Numeric⟩, ⟨0xA620, 0xA629, Numeric⟩, ⟨0xA8D0, 0xA8D9, Numeric⟩,
  ⟨0xA900, 0xA909, Numeric⟩, ⟨0xA9D0, 0xA9D9, Numeric⟩, ⟨0xA9F0, 0xA9F9, Numeric⟩, ⟨0xAA50, 0xAA59, Numeric⟩,
  ⟨0xABF0, 0xABF9, Numeric⟩, ⟨0x104A0, 0x104A9, Numeric⟩, ⟨0x11066, 0x1106F, Numeric⟩, ⟨0x110F0, 0x110F9, Numeric⟩,
  ⟨0x11136, 0x1113F, Numeric⟩, ⟨0x111D0, 0x111D9, Numeric⟩, ⟨0x112F0, 0x112F9, Numeric⟩, ⟨0x114D0, 0x114D9, Numeric⟩,
  ⟨0x11650, 0x11659, Numeric⟩, ⟨0x116C0, 0x116C9, Numeric⟩, ⟨0x11730, 0x11739, Numeric⟩, ⟨0x118E0, 0x118E9, Numeric⟩,
  ⟨0x16A60, 0x16A69, Numeric⟩, ⟨0x16B50, 0x16B59, Numeric⟩, ⟨0x1D7CE, 0x1D7FF, Numeric⟩, ⟨0x005F, 0x005F, ExtendNumLet⟩,
  ⟨0x203F, 0x2040, ExtendNumLet⟩, ⟨0x2054, 0x2054, ExtendNumLet⟩, ⟨0xFE33, 0xFE34, ExtendNumLet⟩, ⟨0xFE4D, 0xFE4F, ExtendNumLet⟩,
  ⟨0xFF3F, 0xFF3F, ExtendNumLet⟩]

end Ocr.Gen
