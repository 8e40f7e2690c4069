/-!
# Model of `ff_wtoupper`, fatfs/unicode.c:45-168
-/
namespace Fpm.Upcase

/-- `cvt1`, fatfs/unicode.c:49-91. -/
def cvt1 : List Nat := [
  0x0061, 0x031A, 0x00E0, 0x0317, 0x00F8, 0x0307, 0x00FF, 0x0001, 0x0178, 0x0100, 0x0130, 0x0132, 0x0106, 0x0139,
  0x0110, 0x014A, 0x012E, 0x0179, 0x0106, 0x0180, 0x004D, 0x0243, 0x0181, 0x0182, 0x0182, 0x0184, 0x0184, 0x0186,
  0x0187, 0x0187, 0x0189, 0x018A, 0x018B, 0x018B, 0x018D, 0x018E, 0x018F, 0x0190, 0x0191, 0x0191, 0x0193, 0x0194,
  0x01F6, 0x0196, 0x0197, 0x0198, 0x0198, 0x023D, 0x019B, 0x019C, 0x019D, 0x0220, 0x019F, 0x01A0, 0x01A0, 0x01A2,
  0x01A2, 0x01A4, 0x01A4, 0x01A6, 0x01A7, 0x01A7, 0x01A9, 0x01AA, 0x01AB, 0x01AC, 0x01AC, 0x01AE, 0x01AF, 0x01AF,
  0x01B1, 0x01B2, 0x01B3, 0x01B3, 0x01B5, 0x01B5, 0x01B7, 0x01B8, 0x01B8, 0x01BA, 0x01BB, 0x01BC, 0x01BC, 0x01BE,
  0x01F7, 0x01C0, 0x01C1, 0x01C2, 0x01C3, 0x01C4, 0x01C5, 0x01C4, 0x01C7, 0x01C8, 0x01C7, 0x01CA, 0x01CB, 0x01CA,
  0x01CD, 0x0110, 0x01DD, 0x0001, 0x018E, 0x01DE, 0x0112, 0x01F3, 0x0003, 0x01F1, 0x01F4, 0x01F4, 0x01F8, 0x0128,
  0x0222, 0x0112, 0x023A, 0x0009, 0x2C65, 0x023B, 0x023B, 0x023D, 0x2C66, 0x023F, 0x0240, 0x0241, 0x0241, 0x0246,
  0x010A, 0x0253, 0x0040, 0x0181, 0x0186, 0x0255, 0x0189, 0x018A, 0x0258, 0x018F, 0x025A, 0x0190, 0x025C, 0x025D,
  0x025E, 0x025F, 0x0193, 0x0261, 0x0262, 0x0194, 0x0264, 0x0265, 0x0266, 0x0267, 0x0197, 0x0196, 0x026A, 0x2C62,
  0x026C, 0x026D, 0x026E, 0x019C, 0x0270, 0x0271, 0x019D, 0x0273, 0x0274, 0x019F, 0x0276, 0x0277, 0x0278, 0x0279,
  0x027A, 0x027B, 0x027C, 0x2C64, 0x027E, 0x027F, 0x01A6, 0x0281, 0x0282, 0x01A9, 0x0284, 0x0285, 0x0286, 0x0287,
  0x01AE, 0x0244, 0x01B1, 0x01B2, 0x0245, 0x028D, 0x028E, 0x028F, 0x0290, 0x0291, 0x01B7, 0x037B, 0x0003, 0x03FD,
  0x03FE, 0x03FF, 0x03AC, 0x0004, 0x0386, 0x0388, 0x0389, 0x038A, 0x03B1, 0x0311, 0x03C2, 0x0002, 0x03A3, 0x03A3,
  0x03C4, 0x0308, 0x03CC, 0x0003, 0x038C, 0x038E, 0x038F, 0x03D8, 0x0118, 0x03F2, 0x000A, 0x03F9, 0x03F3, 0x03F4,
  0x03F5, 0x03F6, 0x03F7, 0x03F7, 0x03F9, 0x03FA, 0x03FA, 0x0430, 0x0320, 0x0450, 0x0710, 0x0460, 0x0122, 0x048A,
  0x0136, 0x04C1, 0x010E, 0x04CF, 0x0001, 0x04C0, 0x04D0, 0x0144, 0x0561, 0x0426, 0x0000]

/-- `cvt2`, fatfs/unicode.c:92-122. -/
def cvt2 : List Nat := [
  0x1D7D, 0x0001, 0x2C63, 0x1E00, 0x0196, 0x1EA0, 0x015A, 0x1F00, 0x0608, 0x1F10, 0x0606, 0x1F20, 0x0608, 0x1F30,
  0x0608, 0x1F40, 0x0606, 0x1F51, 0x0007, 0x1F59, 0x1F52, 0x1F5B, 0x1F54, 0x1F5D, 0x1F56, 0x1F5F, 0x1F60, 0x0608,
  0x1F70, 0x000E, 0x1FBA, 0x1FBB, 0x1FC8, 0x1FC9, 0x1FCA, 0x1FCB, 0x1FDA, 0x1FDB, 0x1FF8, 0x1FF9, 0x1FEA, 0x1FEB,
  0x1FFA, 0x1FFB, 0x1F80, 0x0608, 0x1F90, 0x0608, 0x1FA0, 0x0608, 0x1FB0, 0x0004, 0x1FB8, 0x1FB9, 0x1FB2, 0x1FBC,
  0x1FCC, 0x0001, 0x1FC3, 0x1FD0, 0x0602, 0x1FE0, 0x0602, 0x1FE5, 0x0001, 0x1FEC, 0x1FF3, 0x0001, 0x1FFC, 0x214E,
  0x0001, 0x2132, 0x2170, 0x0210, 0x2184, 0x0001, 0x2183, 0x24D0, 0x051A, 0x2C30, 0x042F, 0x2C60, 0x0102, 0x2C67,
  0x0106, 0x2C75, 0x0102, 0x2C80, 0x0164, 0x2D00, 0x0826, 0xFF41, 0x031A, 0x0000]

/-- Conversion inside a block, fatfs/unicode.c:134-162; `p` is what follows the block header.  `none`: read outside of the table. -/
def conv (p : List Nat) (uc bc cmd : Nat) : Option Nat :=
  if cmd = 0 then p[uc - bc]?
  else if cmd = 1 then some (uc - (uc - bc) % 2)
  else if cmd = 2 then some ((uc + 2 ^ 16 - 16) % 2 ^ 16)
  else if cmd = 3 then some ((uc + 2 ^ 16 - 32) % 2 ^ 16)
  else if cmd = 4 then some ((uc + 2 ^ 16 - 48) % 2 ^ 16)
  else if cmd = 5 then some ((uc + 2 ^ 16 - 26) % 2 ^ 16)
  else if cmd = 6 then some ((uc + 8) % 2 ^ 16)
  else if cmd = 7 then some ((uc + 2 ^ 16 - 80) % 2 ^ 16)
  else if cmd = 8 then some ((uc + 2 ^ 16 - 0x1C60) % 2 ^ 16)
  else some uc

/-- Loop over the blocks, fatfs/unicode.c:126-166; the first argument bounds the number of rounds (the length of the table).
`none`: read outside of the table. -/
def blocks (uc : Nat) : Nat → List Nat → Option Nat
  | 0, _ => none
  | _ + 1, [] => none
  | k + 1, bc :: p =>
    if bc = 0 ∨ uc < bc then some uc
    else
      match p with
      | [] => none
      | nc :: p =>
        if uc < bc + nc % 256 then conv p uc bc (nc / 256)
        else blocks uc k (if nc / 256 = 0 then p.drop (nc % 256) else p)

/-- `ff_wtoupper`, fatfs/unicode.c:45-168. -/
def wtoupper (uni : Nat) : Option Nat :=
  if uni < 0x10000 then
    if uni < 0x1000 then blocks uni cvt1.length cvt1 else blocks uni cvt2.length cvt2
  else some uni

end Fpm.Upcase
