import Verif.Fat.Model
/-!
# Mounting a FAT volume

Model of `check_fs`, `find_volume` and the part of `mount_volume` for FAT12, FAT16 and FAT32, of `fatfs/fatfs.c`.  Unsigned numbers of 32 bits
wrap around.  Not modelled: choice of the drive from the path, the state of the drive, a volume that is mounted already, exFAT (an outcome
of its own) and the sector size, which is a parameter.
-/
namespace Fpm.Mount
open Fpm.Fat Fpm.FatBytes

/-- Arithmetic of `uint32_t`, fatfs/fatfs.c:3000. -/
def u32 (n : Nat) : Nat := n % 2 ^ 32

/-- A volume with a sector size and a device only, for the use of the window before the volume is known, fatfs/fatfs.c:2912-2914. -/
def raw (ss : Nat) (io : Nat → Io) : Vol :=
  { ss := ss, csize := 0, fatbase := 0, fsize := 0, nFats := 0, nFatent := 0, fsType := 0, database := 0, io := io }

/-- Bytes of `"\xEB\x76\x90" "EXFAT   "`, fatfs/fatfs.c:2919-2922. -/
def exfatSign : List Nat := [0xEB, 0x76, 0x90, 69, 88, 70, 65, 84, 32, 32, 32]

/-- Bytes of `"FAT32   "`, fatfs/fatfs.c:2931. -/
def fat32Sign : List Nat := [70, 65, 84, 51, 50, 32, 32, 32]

/-- Fields of the boot sector, fatfs/fatfs.c:99-126. -/
structure Bpb where
  jmp : Nat
  bytsPerSec : Nat
  secPerClus : Nat
  rsvd : Nat
  numFats : Nat
  rootEnt : Nat
  totSec16 : Nat
  fatSz16 : Nat
  totSec32 : Nat
  fatSz32 : Nat
  fsVer : Nat
  rootClus : Nat
  fsInfo : Nat
  sign : Nat
deriving DecidableEq, Repr

/-- The fields read by `check_fs` and `mount_volume`, fatfs/fatfs.c:2918-2947 and 3158-3249, all at once; reading has no effect. -/
def readBpb (w : List Nat) : Option Bpb :=
  w[0]?.bind fun jmp => (ldWord w 11).bind fun bps => w[13]?.bind fun spc => (ldWord w 14).bind fun rsvd => w[16]?.bind fun nf =>
  (ldWord w 17).bind fun root => (ldWord w 19).bind fun t16 => (ldWord w 22).bind fun f16 => (ldDword w 32).bind fun t32 =>
  (ldDword w 36).bind fun f32 => (ldWord w 42).bind fun ver => (ldDword w 44).bind fun rc => (ldWord w 48).bind fun info =>
  (ldWord w 510).bind fun sign => some ⟨jmp, bps, spc, rsvd, nf, root, t16, f16, t32, f32, ver, rc, info, sign⟩

/-- What `check_fs` found, fatfs/fatfs.c:2899-2904: a FAT volume, an exFAT volume, a boot sector of another kind, another sector, a failing device; or an access outside
of the window. -/
inductive Kind where
  | fat | exfat | boot | other | diskErr | ub
deriving DecidableEq, Repr

/-- `x & (x - 1) == 0`: no more than one bit; fatfs/fatfs.c:2940-2941 and 3174. -/
def oneBit (x : Nat) : Bool := x &&& (x - 1) == 0

/-- The test for a FAT volume without signature, fatfs/fatfs.c:2938-2947. -/
def looksFat (p : Bpb) : Bool :=
  oneBit p.bytsPerSec && decide (p.bytsPerSec ≥ 512) && decide (p.bytsPerSec ≤ 4096) && decide (p.secPerClus ≠ 0) && oneBit p.secPerClus &&
  decide (p.rsvd ≠ 0) && decide (u32 (p.numFats + (2 ^ 32 - 1)) ≤ 1) && decide (p.rootEnt ≠ 0) && (decide (p.totSec16 ≥ 128) || decide (p.totSec32 ≥ 0x10000)) &&
  decide (p.fatSz16 ≠ 0)

/-- Decision about the sector in the window, fatfs/fatfs.c:2918-2952.  `memcmp` looks at the bytes at offset 0 and 82. -/
def classify (w : List Nat) (p : Bpb) : Kind :=
  if p.sign = 0xAA55 ∧ w.take 11 = exfatSign then .exfat
  else if (p.jmp = 0xEB ∨ p.jmp = 0xE9 ∨ p.jmp = 0xE8) ∧ ((p.sign = 0xAA55 ∧ (w.drop 82).take 8 = fat32Sign) ∨ looksFat p = true) then .fat
  else if p.sign = 0xAA55 then .boot
  else .other

/-- Loading a sector afresh, fatfs/fatfs.c:2912-2914.  `move_window` does nothing for the number that stands for an invalid window. -/
def load (ss : Nat) (io : Nat → Io) (s : St) (sect : Nat) : St × Nat :=
  if sect = 0xFFFFFFFF then ({ s with wflag := false, winsect := none }, FR_OK) else moveWindow (raw ss io) { s with wflag := false, winsect := none } sect

/-- `check_fs`, fatfs/fatfs.c:2906-2953. -/
def checkFs (ss : Nat) (io : Nat → Io) (s : St) (sect : Nat) : St × Kind :=
  if (load ss io s sect).2 = FR_OK then
    match readBpb (load ss io s sect).1.win with
    | none => ((load ss io s sect).1, .ub)
    | some p => ((load ss io s sect).1, classify (load ss io s sect).1.win p)
  else ((load ss io s sect).1, .diskErr)

/-- First sector of partition `i`, fatfs/fatfs.c:2978. -/
def partStart (w : List Nat) (i : Nat) : Option Nat := ldDword w (446 + i * 16 + 8)

/-- The loop ends, fatfs/fatfs.c:2983: a volume has been found, or the window could not be accessed. -/
def Kind.stop : Kind → Bool
  | .fat => true
  | .exfat => true
  | .ub => true
  | _ => false

/-- Trying partitions, fatfs/fatfs.c:2981-2983. -/
def tryParts (ss : Nat) (io : Nat → Io) : List Nat → St → Kind → St × Kind
  | [], s, k => (s, k)
  | 0 :: l, s, _ => tryParts ss io l s .other
  | (n + 1) :: l, s, _ => if (checkFs ss io s (n + 1)).2.stop then checkFs ss io s (n + 1) else tryParts ss io l (checkFs ss io s (n + 1)).1 (checkFs ss io s (n + 1)).2

/-- Partitions of a sector with a partition table, fatfs/fatfs.c:2976-2984. -/
def scanParts (ss : Nat) (io : Nat → Io) (s : St) : St × Kind :=
  match partStart s.win 0, partStart s.win 1, partStart s.win 2, partStart s.win 3 with
  | some a, some b, some c, some d => tryParts ss io [a, b, c, d] s .other
  | _, _, _, _ => (s, .ub)

/-- `find_volume` with `part = 0`, fatfs/fatfs.c:2960-2985. -/
def findVolume (ss : Nat) (io : Nat → Io) (s : St) : St × Kind :=
  if (checkFs ss io s 0).2 = .boot then scanParts ss io (checkFs ss io s 0).1 else checkFs ss io s 0

/-- `fasize`, fatfs/fatfs.c:3162-3165. -/
def fatSize (p : Bpb) : Nat := if p.fatSz16 = 0 then p.fatSz32 else p.fatSz16

/-- `tsect`, fatfs/fatfs.c:3181-3184. -/
def total (p : Bpb) : Nat := if p.totSec16 = 0 then p.totSec32 else p.totSec16

/-- `sysect`, fatfs/fatfs.c:3171 and 3192. -/
def sysect (ss : Nat) (p : Bpb) : Nat := u32 (u32 (p.rsvd + u32 (fatSize p * p.numFats)) + p.rootEnt / (ss / 32))

/-- `nclst`, fatfs/fatfs.c:3196. -/
def nclst (ss : Nat) (p : Bpb) : Nat := (total p - sysect ss p) / p.secPerClus

/-- `fmt`: 1 for FAT12, 2 for FAT16, 3 for FAT32, fatfs/fatfs.c:3200-3209. -/
def fmtOf (n : Nat) : Nat := if n ≤ 0xFF5 then 1 else if n ≤ 0xFFF5 then 2 else if n ≤ 0x0FFFFFF5 then 3 else 0

/-- `szbfat`, fatfs/fatfs.c:3227 and 3233-3235. -/
def szbfat (fmt n : Nat) : Nat := if fmt = 3 then u32 (n * 4) else if fmt = 2 then u32 (n * 2) else u32 (u32 (n * 3) / 2 + n % 2)

/-- Start of the root directory: a cluster for FAT32, otherwise a sector; fatfs/fatfs.c:3226 and 3232. -/
def dirbase (bsect : Nat) (p : Bpb) (fmt : Nat) : Nat := if fmt = 3 then p.rootClus else u32 (u32 (bsect + p.rsvd) + u32 (fatSize p * p.numFats))

/-- The checks before the kind of FAT is known, fatfs/fatfs.c:3158-3199. -/
def early (ss : Nat) (p : Bpb) : Bool :=
  decide (p.bytsPerSec = ss) && (decide (p.numFats = 1) || decide (p.numFats = 2)) && decide (p.secPerClus ≠ 0) && oneBit p.secPerClus &&
  decide (p.rootEnt % (ss / 32) = 0) && decide (p.rsvd ≠ 0) && decide (sysect ss p ≤ total p) && decide (nclst ss p ≠ 0)

/-- The checks after that, fatfs/fatfs.c:3210-3240. -/
def late (ss : Nat) (p : Bpb) (fmt : Nat) : Bool :=
  decide (fmt ≠ 0) && (if fmt = 3 then decide (p.fsVer = 0) && decide (p.rootEnt = 0) else decide (p.rootEnt ≠ 0)) &&
  decide (u32 (szbfat fmt (nclst ss p + 2) + (ss - 1)) / ss ≤ fatSize p)

/-- What `mount_volume` keeps, besides `Vol`: first sector, number of sectors, entries of the root directory, its start, and the sector for free
counts if it is in use (`fsi_flag` is not 0x80). -/
structure Info where
  volbase : Nat
  totsec : Nat
  nRoot : Nat
  dirbase : Nat
  fsi : Option Nat

/-- The volume, fatfs/fatfs.c:3165-3218. -/
def volOf (ss : Nat) (io : Nat → Io) (bsect : Nat) (p : Bpb) : Vol :=
  { ss := ss, csize := p.secPerClus, fatbase := u32 (bsect + p.rsvd), fsize := fatSize p, nFats := p.numFats, nFatent := nclst ss p + 2,
    fsType := fmtOf (nclst ss p), database := u32 (bsect + sysect ss p), io := io }

/-- The same for the other fields, fatfs/fatfs.c:3177, 3184, 3216, 3226, 3232, 3245, 3250. -/
def infoOf (ss bsect : Nat) (p : Bpb) (fsi : Option Nat) : Info :=
  { volbase := bsect, totsec := total p, nRoot := p.rootEnt, dirbase := dirbase bsect p (fmtOf (nclst ss p)), fsi := fsi }

/-- Free counts from the sector for them, fatfs/fatfs.c:3251-3260. -/
def readFsi (s : St) : Option St :=
  (ldWord s.win 510).bind fun a => (ldDword s.win 0).bind fun b => (ldDword s.win 484).bind fun c => (ldDword s.win 488).bind fun n => (ldDword s.win 492).bind fun l =>
    some (if a = 0xAA55 ∧ b = 0x41615252 ∧ c = 0x61417272 then { s with freeClst := n, lastClst := l } else s)

/-- Result of `mount_volume`: the code, and the volume. -/
structure Out where
  st : St
  res : Nat
  vol : Option (Vol × Info)

/-- Result codes, include/fpm/fs.h:20-34. -/
def FR_NO_FILESYSTEM := 13

/-- Not a result of the code: an exFAT volume, which is not modelled. -/
def EXFAT := 2 ^ 33

/-- No counts yet, fatfs/fatfs.c:3244-3245. -/
def fresh (s : St) : St := { s with lastClst := 0xFFFFFFFF, freeClst := 0xFFFFFFFF, fsiFlag := false }

/-- The sector for free counts is in use, fatfs/fatfs.c:3247-3261. -/
def withFsi (ss : Nat) (io : Nat → Io) (bsect : Nat) (p : Bpb) (s : St) : Out :=
  if (moveWindow (raw ss io) s (u32 (bsect + 1))).2 = FR_OK then
    match readFsi (moveWindow (raw ss io) s (u32 (bsect + 1))).1 with
    | none => ⟨(moveWindow (raw ss io) s (u32 (bsect + 1))).1, UB, none⟩
    | some t => ⟨t, FR_OK, some (volOf ss io bsect p, infoOf ss bsect p (some (u32 (bsect + 1))))⟩
  else ⟨(moveWindow (raw ss io) s (u32 (bsect + 1))).1, FR_OK, some (volOf ss io bsect p, infoOf ss bsect p none)⟩

/-- The boot sector is in the window, fatfs/fatfs.c:3158-3278. -/
def mountAt (ss : Nat) (io : Nat → Io) (bsect : Nat) (p : Bpb) (s : St) : Out :=
  if early ss p = true ∧ late ss p (fmtOf (nclst ss p)) = true then
    if fmtOf (nclst ss p) = 3 ∧ p.fsInfo = 1 then withFsi ss io bsect p (fresh s)
    else ⟨fresh s, FR_OK, some (volOf ss io bsect p, infoOf ss bsect p none)⟩
  else ⟨s, FR_NO_FILESYSTEM, none⟩

/-- A volume has been found, fatfs/fatfs.c:3060. -/
def mountFound (ss : Nat) (io : Nat → Io) (s : St) : Out :=
  match readBpb s.win with
  | some p => mountAt ss io (s.winsect.getD 0xFFFFFFFF) p s
  | none => ⟨s, UB, none⟩

/-- `mount_volume` from line 3052 on, fatfs/fatfs.c:3052-3278. -/
def mount (ss : Nat) (io : Nat → Io) (s : St) : Out :=
  match (findVolume ss io s).2 with
  | .fat => mountFound ss io (findVolume ss io s).1
  | .exfat => ⟨(findVolume ss io s).1, EXFAT, none⟩
  | .boot => ⟨(findVolume ss io s).1, FR_NO_FILESYSTEM, none⟩
  | .other => ⟨(findVolume ss io s).1, FR_NO_FILESYSTEM, none⟩
  | .diskErr => ⟨(findVolume ss io s).1, FR_DISK_ERR, none⟩
  | .ub => ⟨(findVolume ss io s).1, UB, none⟩

end Fpm.Mount
