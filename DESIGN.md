# Formal model of fpm-embedded (FP/M)

The code in /repo (C, pinned commit) was read as text and transcribed function by
function into Lean 4 definitions under `lean/Verif/`. Properties are in `properties.jsonl`;
`MANIFEST.json` maps every property to theorem names. One directory per area:
`Model.lean` (transcription, each definition citing file and lines), `Spec.lean`
(independent specification), lemma files, `Props.lean` (the property theorems, each with an
`example` showing that its hypotheses can be met).

## Trusted base

* Lean 4.33.0 kernel; Mathlib modules only where imported explicitly.
* Axioms: every theorem depends on at most `propext`, `Classical.choice` and `Quot.sound`
  (checked with `#print axioms`).
* No `sorry`, `admit`, own axioms, `native_decide` or `bv_decide`.
* The transcription from C to Lean (each definition cites file and lines and says what is simplified).
* Undefined behaviour (out-of-bounds access, over-read, signed overflow) is a distinct outcome in the
  models, not assumed away.

## What is modelled

| directory | code | not modelled / simplified |
|-----------|------|---------------------------|
| Utf8 | kernel/fpm_putchar, fpm_puts, fpm_getwch, fpm_utf8len and friends | the serial port itself (console = list of bytes) |
| Strlcpy | fpm_strlcpy, fpm_strlcpy_unicode, fpm_strlcpy_to_utf8, fpm_strlcpy_from_utf8 | - |
| Tokenize | kernel/fpm_tokenize.c, argument vector of the shell | - |
| Alloc | kernel/fpm_alloc.c, kernel/fpm_context.c at byte-memory level | alignment of the heap start is a hypothesis |
| Getopt | kernel/fpm_getopt.c | message texts |
| Editline | kernel/fpm_editline.c | terminal is one unbounded row |
| GetKey | kernel/fpm_getkey.c | input as the list of future characters |
| Calendar | kernel/fpm_get_dotw.c, hour conversion of cmd_time.c, range test of cmd_date.c, get_fattime, print_time | sscanf, printf, the RTC hardware |
| Dir | kernel/cmd/cmd_dir.c: sorting, show_files, the three print formats, print_size | linked list as a List, printf conversions, memory exhaustion; show_directories and recursion |
| TextIo | fatfs/fatfs.c: tchar2uni, put_utf, f_gets, putc_bfd, putc_flush, f_putc, f_puts | f_read and f_write by their contract (whole bytes, no I/O errors, disk may become full) |
| Cat | kernel/cmd/cmd_cat.c: puts_with_cr, display_file on top of f_gets | option parsing, open errors |
| PrintfEsc | apps/printf/printf.c: escape | the conversion loop (see Printf) |
| kernel/fpm_loader.c | Loader/Model.lean | fpm_load (checks, search of the relocation section), fpm_get_name, find_address_by_name, fpm_invoke up to the call; header checks read together |
| kernel/fpm_exec.c, unix/loader_unix.c, kernel/fpm_shell.c (prompt) | Exec/Model.lean | find_exe, drive test, fpm_exec after lookup as a trace of resource events, fpm_load_arch/fpm_unload_arch (Unix), build_prompt |
| unix/diskio_unix.c, pico/flash.c, tools/uf2fat/diskio.cpp, pico/sd_pico/sd_card.c | DiskIo/Model.lean | disk_read/disk_write, flash_read/flash_write, block loops of the SD driver with the card as environment; SPI transfer and card commands only by their results |
| kernel/cmd/cmd_copy.c, kernel/cmd/cmd_rename.c | Copy/Model.lean | copy_file loop, destination paths of copy_to_directory and move_files_to_directory; prompts and recursion not |
| pico/sd_pico/crc.c, apps/rz/crc.c | Crc/Model.lean | all functions and tables; plain char unsigned |
| apps/rz/zheaders.c, znumbers.c, zserial.c, rz.c | Zmodem/Model.lean | everything but output on the terminal (debug, ticker); headers sent little-endian; the input is a list of bytes (its end is a distinct outcome); the file system is arbitrary |
| FatBytes | fatfs/fatfs.c 426-497, integers of 2, 4, 8 bytes | - |
| FatLock | fatfs/fatfs.c 664-771, locking in f_open, f_opendir, f_close, f_unlink, f_rename, f_mount | lock table only; the key of an object is given |
| Fat | fatfs/fatfs.c 781-821 (sync_window, move_window), 863-870, 877-1013 (get_fat, put_fat) | one volume, FAT12/16/32; the block device is an arbitrary sequence of successes and failures (a failed transfer may leave any bytes, in the window or in the sector); exFAT branches not modelled (not configured) |
| Fat (chains) | fatfs/fatfs.c 1155-1248 (remove_chain), 1255-1362 (create_chain) | loops with a bound on the rounds, shown never to be reached; no TRIM, no exFAT |
| Upcase | fatfs/unicode.c 45-168 (ff_wtoupper) | Tables as lists; a read behind a table is an outcome. |
| Glob | fatfs/fatfs.c 2498-2564 (get_achar, pattern_match), the call at 4531 | Strings as byte lists from the pointer to the end of the object. |
| Lfn | fatfs/fatfs.c 1633-1734, 1799-1808 (cmp_lfn, pick_lfn, put_lfn, sum_sfn); the loops at 2263-2273, 2083-2085, 2169-2171 without the moves between entries | Entries as lists of 32 bytes; the buffer after a refused entry is dropped. |
| Names | fatfs/fatfs.c 2573-2707 (create_name), 2403-2471 (names in get_fileinfo) | Code page 0 as configured; path as list of bytes; the working buffer explicit. |
| FatDir | fatfs/fatfs.c dir_read, dir_find, dir_alloc, gen_numname, dir_register, dir_remove, f_readdir | a directory is the list of its entries (dir_sdi, dir_next and device errors left out); stretching by a given function |
| Elfexe | tools/elfexe/elfexe.c: all functions but the opening and mapping of the file | section offset and size read once; offsets do not wrap; little-endian host; messages left out |
| Uf2 | tools/uf2fat/format.cpp: scan_block, get_location_and_family, write_sector, save_image, format_filesystem; main.cpp: parse_size; pico/flash.c: place of the file system | the file system is an arbitrary list of sectors; stoul without white space and sign; a failed run has no output |
| FatFile | fatfs/fatfs.c 3639-3743 (f_read), 3750-3879 (f_write), 4209-4394 (f_lseek), 4719-4764 (f_truncate), write-back of f_sync | one open file, and several distinct open files (C93), on the volume model of Fat; validate() is left out; no fast seek, no FF_FS_TINY, no exFAT; loops with a bound on the rounds, shown never to be reached; memory of the caller is a list |
| FatSync | fatfs/fatfs.c: f_sync, f_close (its call of f_sync), sync_fs, st_clust, ld_clust, the end of f_open for a file that exists | CTRL_SYNC succeeds or fails without other effect; follow_path is replaced by moving the window to the sector of the entry; no FA_SEEKEND, no creation; time of day is a parameter |
| Mount | fatfs/fatfs.c: check_fs, find_volume, mount_volume (FAT12, FAT16, FAT32) | sector size is a parameter; all fields of a boot sector read at once; exFAT an outcome; choice of drive, disk_initialize and volumes mounted before not modelled |
| Mkfs | fatfs/fatfs.c: f_mkfs (FAT12, FAT16, FAT32), create_partition | sector size, block size and size of the device are parameters; the parameters in opt are the default ones; the serial number is a parameter; exFAT an outcome |
| DirDev | fatfs/fatfs.c: dir_clear, dir_sdi, dir_next, dir_alloc, dir_read, dir_find, dir_register, dir_remove, f_readdir | exFAT left out; the steps for one entry are those of FatDir; loops are followed for more rounds than a directory can have entries |
| Tree | fatfs/fatfs.c: follow_path, f_unlink, f_mkdir, f_open, f_rename, f_chdir, f_getcwd, f_stat, f_opendir, f_readdir, f_findfirst, f_findnext; f_close; kernel/cmd/cmd_copy.c: copy_file; kernel/cmd/cmd_remove.c: remove, remove_file, remove_directory, remove_recursive | mount_volume left out (C78), results of chk_share are a parameter of f_unlink and f_rename; messages and prompts of rm left out, the answer is a parameter; depth of recursion bounded by a parameter; exFAT left out |
| Statfs | fatfs/fatfs.c: f_statfs; kernel/cmd/cmd_mount.c: blk_to_kbytes and the numbers of show | get_ldnumber and disk_status left out (the volume is mounted and present); exFAT left out |
| PicoLoad | fpm_load_arch of pico/flash.c | messages left out; flash memory is the device of Fat; the volume is that in flash memory |
| Flash | pico/flash.c flash_probe, flash_block_count, flash_read, flash_write; pico/diskio.c for drive 0 | erasing and programming as the SDK documents them; an address outside of the chip is undefined behaviour; names, serial numbers and interrupts left out |
| Tree (ChmodModel) | fatfs/fatfs.c: f_chmod, f_utime | without mount_volume and exFAT |
| Tree (Label*) | fatfs/fatfs.c 5139-5234 (f_getlabel), 5240-5345 (f_setlabel), 2036-2101 (dir_read for labels); kernel/cmd/cmd_vol.c 33-35 | without mount_volume and the name of the disk; f_setlabel for FAT only, of f_getlabel on exFAT only the extraction of the text |
| Drive | fatfs/fatfs.c 2808-2890 (get_ldnumber), 3999-4022 (f_chdrive, f_getdrive); pico/diskio.c 38 | Unix style names are not configured; characters are not negative |
| Tree/Mv* | kernel/cmd/cmd_rename.c: rename_file, move_files_to_directory, fpm_cmd_rename behind the options | The answers of the user are a function of the path; only FAT volumes that are mounted already; the text of messages is a tag with the result. |
| pico/sd_pico/sd_card.c, pico/sd_pico/sd_spi.c | Sd/Model.lean | the whole driver byte by byte (commands, initialisation, reading, writing, re-initialisation); the card is a machine exchanging bytes. Simplified: timeouts are numbers of rounds, baud rates, locks and debug output left out, card detection finds a card, DMA is a loop over bytes |
| Printf | apps/printf/printf.c: main and its helpers | the text of one directive (fpm_printf, fpm_strtol, atof) is a parameter; char unsigned; usage without format |
| Sd/Drive* | pico/diskio.c:179-423 (drive 1), pico/sd_pico/sd_card.c:622-642, 1195-1204, 1300-1349 | no pins, locks, drive 0; a switch does not change during a series |
| Sd (exchange) | pico/sd_pico/sd_card.c:461-503, 919-926, 1020-1028 | as Sd |
| Gpio | apps/gpio/gpio.c:20-228, kernel/fpm_strtol.c:21-26 | options (C22 - C25) left out; strtoul as in the C standard, 32 bits; SDK functions as state changes of a pin |
| Cpr | kernel/cmd/cmd_copy.c: copy_file, copy_recursive, copy_object, copy_to_directory and the end of fpm_cmd_copy, for directories | a tree of files and directories in place of the device (C80 - C94 have the device); paths from the root directory without dots, drives and backslashes; names compared exactly; closing succeeds; no other objects are open; attributes, times, lines of -v and stack use left out |
| Pack | tools/uf2fat/format.cpp: add_directory, add_file, add_contents | the walk of fts_read is a given list of nodes; reading the files of the host succeeds; the result of f_close is not used by the code, and is not modelled |
| Handles | kernel/cmd/cmd_cat.c, cmd_copy.c, cmd_remove.c, cmd_dir.c, cmd_vol.c, only which objects are opened and closed | all other results are arbitrary answers of an environment; steps are limited by any number, a command that does not end within it says nothing |
| Tree (crash) | fatfs/fatfs.c f_unlink: all states of the device while an object is removed | a sector is written as a whole or not at all |
| Expand | fatfs/fatfs.c:5355-5453 f_expand | no exFAT, no validate; size of a cluster a power of two; loops with a bound on rounds whose end is an outcome of its own |
| Ls | kernel/cmd/cmd_dir.c: list_append_name, show_directories, scan_directory, show_dir, fpm_cmd_dir | options are parsed already; memory and stack do not run out; the file system is an environment that does not change meanwhile; depth of recursion limited by any number |
| Shell | kernel/fpm_shell.c main loop, kernel/fpm_exec.c choice of the command, kernel/cmd/cmd_echo.c | the line editor is replaced by the contents of its buffer (editor: Editline); strcasecmp and strcmp of the C library as in the C locale; prompt and ^C restart are left out; messages of fpm_getopt are left out |
| Format | kernel/cmd/cmd_format.c: find_drive_unit, format_drive, fpm_cmd_format | disk_identify and the work of f_mkfs (see Mkfs) are parameters; what the editor shows is left out (C27) |
| Tree/Rmdir* | kernel/cmd/cmd_rmdir.c: remove_directory, fpm_cmd_rmdir | what fpm_getopt makes of the arguments is a list; messages are told apart by what they say; paths without names of drives |
| Tree/Mkcd* | kernel/cmd/cmd_mkdir.c, kernel/cmd/cmd_cd.c | what fpm_getopt makes of the arguments is a list; messages are told apart by what they say; paths without names of drives |
| Speed | kernel/cmd/cmd_vol.c: size, elapsed_usec, print_speed, test_speed | the file system is its replies; of the disk only the length of diskspeed.data is followed; output is left out |
| Eject | fatfs/fatfs.c: mount_volume (states only), f_mount, f_unmount, validate | what is found on a medium is a parameter; paths have valid drives; of an object only volume and mount number |
| Eject (CmdModel) | kernel/cmd/cmd_eject.c; kernel/cmd/cmd_mount.c: mount, fpm_cmd_mount | arguments as fpm_getopt gives them; of messages only the kind; a list of volumes leaves the state as it is |
| UnixLoad | unix/loader_unix.c; the order of calls in fpm_load and fpm_execv | the checks of the file are one reply; the program takes and gives back nothing itself |

Everything else of the repository is not modelled (yet); in particular device drivers, the Pico SDK, USB, and the
interactive commands beyond the functions named above.


## Findings: places where the code does not do what the property says

Each is proved in Lean with a concrete witness (theorem `..._violated`), except those marked (read).

* Allocator: request sizes near SIZE_MAX wrap in `fpm_alloc`/`fpm_truncate` (C01, C07, C08): a block of too few bytes is
  returned, header writes fall outside the heap.
* `fpm_strlcpy_to_utf8` counts characters against a byte budget and overruns its destination (C15); `fpm_puts` and
  `fpm_strlcpy_from_utf8` read past the terminator for truncated multi-byte sequences (C16).
* Tokenizer: a NUL is stored one byte past the terminator in some lines (C20); the shell's argument vector of 42 entries
  is too small for lines of 83 or more characters (C21).
* `fpm_getopt`: `--` as the first argument is not recognised (C22); an exact long name after two longer ones is reported
  ambiguous (C24); after an unknown or ambiguous long option the parser stays inside the argument, skipping or reading
  past it (C25).
* Line editor: the shell passes the buffer size in bytes, the editor counts characters: 128 characters too many (C28).
* Key decoder: the number in an escape sequence is computed modulo 2^32 (C30).
* `date` accepts 31 February (C65); file time stamps have a 7-bit year, the clock accepts years up to 9999 (C66).
* `dir -t` compares time stamps as signed ints: files dated 2044 or later are listed as the oldest (C34).
* `tchar2uni` accepts overlong UTF-8 of three and four bytes (C57).
* `f_gets` needs a buffer three bytes larger than line and terminator, else it splits the line (C64); malformed sequences are dropped together with the bytes after the lead byte, so `cat` of a Latin-1 file loses letters and line breaks, and text behind a NUL byte in a line (C37).
* The loader checks no offset or size of the file: a truncated executable makes it read outside the mapping; `sh_entsize` 0 divides by zero (C67).
* `fpm_exec` does not unload the program if there is too little stack or heap; ^C leaves descriptor, mapping and a context on a dead stack frame behind; after a failed `mmap` (e.g. an empty file) the Unix loader closes the descriptor twice and unmaps MAP_FAILED (C40).
* The prompt buffer of 128 bytes is overrun in a directory whose name is longer than about 100 bytes (C63).
* Sector numbers times sector size wrap at 2^32: reading or writing sector 1048576 of a 512-sector flash accesses sector 0; the flash driver accepts an access ending at exactly 4 GB (C41).
* The SD driver overwrites the status of a rejected data block with the result of the status command, so lost blocks are reported as written; a write of 0 blocks sends 2^32 blocks (C68).
* `cp` ignores the result of closing the destination: an unflushed copy is reported as complete (C61).
* `cp`/`mv` into a directory overrun the path array for names longer than 255 bytes; `cp -r foo/ bar` uses uninitialised bytes; `cp -r a foo/ bar` copies `foo/` to `bar/a` (C62).
- **CRC-7 misses single-byte errors.** Flipping bits 7, 3 and 0 of any byte leaves the SD command CRC unchanged (C43_crc7_tight); inherent in the standard, stated so that C43 is not over-read. With a signed plain `char` (e.g. x86) `m_Crc7Table[(crc << 1) ^ data[i]]` would be indexed negatively for bytes >= 0x80.
* On targets where plain `char` is signed (x86-64), `fpm_getchar` turns every byte >= 0x80 into an error code: `rz` cannot receive binary data there and accepts no hex header at all (C44, C45). On Unix a byte 3 in the data kills the program.
* Hex headers are written to a 17-byte array without a terminator and sent as a C string: every header sent reads past the array (C48).
* `rz` with several files: the count of received bytes is not reset, so the second file is asked for from the size of the first; only the last file is closed (C47). The position in ZDATA headers is ignored, and a file whose write failed is not closed.
* A file name without a zero byte in its subpacket is continued with the frame end character and old buffer contents (C69).
* Awaiting a header, six CAN characters are needed to cancel where five are documented; flow control characters with bit 7 set are returned as data; flow control between ZDLE and the next character is an error; ZDLE may be repeated up to four times; frame ends are accepted as check bytes (C45, C46).
* File locks: the counter of readers reaches 0x100, the mark of a writer, after 256 simultaneous opens; one close then frees the entry although 255 readers remain, and a writer is admitted (C55).
* An open directory is locked under its own first cluster while f_unlink and f_rename check the key of its directory entry, so an open directory can be removed or renamed (C55).
* `sync_window` ignores the result of writing the second FAT, so a flush reports success although the copies differ (C71).
* FAT12: an entry crossing the border of two sectors is written in two halves; between them a truncated chain can lead into another file (C53).
* `f_truncate` to length 0 frees the chain while the directory entry on the device still names its first cluster until `f_sync`; power lost in between leaves an entry with a size and a first cluster that is free and can be given to another file (`C128_violated`).
* C58: a run of 256 question marks sets bit 8 of the skip counter, which stands for an asterisk, so the pattern matches names of any length (`C58_violated`).
* C56: `put_lfn` uses 0xFFFF both as filler and as "no more characters", but `create_name` lets U+FFFF through: a file created with the name U+FFFF is listed as 13 times that character and is not found under its name (`C56_violated`).
* C74: a long name of more than 255 UTF-8 bytes (for example 100 characters of three bytes) can be created but is listed by its generated short name only (`C74_long`).
* dir_register (fatfs.c:2197): the entry that takes the place of the end mark is not followed by a new end mark; leftovers behind the old end mark come to light as objects (C75_garbage). FatFs itself clears clusters, so this needs a volume written by other software.
* dir_register (fatfs.c:2197): an 8.3 entry placed directly behind an orphaned long name whose checksum matches takes over that name (C75_orphan); possible after a crash while creating a long name.
* dir_read (fatfs.c:2067) and dir_find (fatfs.c:2154) test attributes differently: an entry with the volume and directory bits both set is listed but never found.
* C59: on arm32 the stub of import i loads its address from byte offset i, not 4*i: every program with more than one import calls a wrong address (tools/elfexe/elfexe.c:467).
* C59: on arm64 the offset of import 512 and up overflows the 12-bit immediate; import 512 jumps through slot 0 (tools/elfexe/elfexe.c:399).
* elfexe: a bad entry in the middle of the table ends the tool with the entries before it already changed in the shared mapping and without the mark, so the file can neither run nor be processed again; header fields are not checked against the size of the file.
* C76: uf2fat rounds the end of the program with (end + 0x10000) & ~0xffff, the firmware with (len + 0xffff) & ~0xffff: if the last 256-byte block ends at a 64-kbyte boundary the firmware looks for the file system 64 kbytes below the place where the tool put it (tools/uf2fat/format.cpp:331, pico/flash.c:126).
* uf2fat: without -o, an input without a last block ends in an exception from resize_file(-1); with -o its file system is taken for a part of the program when formatted again; only the blocks up to the first last block are kept (files with programs for several families lose all but the first). An empty input is accepted and gets a file system at 0x10000.
* uf2fat: characters behind the suffix of the size are ignored and large sizes wrap around (C60_size_lax).
* f_write (fatfs.c:239-243, 3804-3855): if the device fails in the middle of a write, ABORT returns before FA_MODIFIED is set, so the bytes and clusters already written are not entered in the directory at close and the clusters are lost (model: FatFile writeLoop).
* f_truncate (fatfs.c:4746-4753): the sector buffer is written back after the chain has been cut, possibly into a cluster that has just been freed. Harmless for one file (C54 shows that other chains keep their contents), since the cluster cannot have been given away in between.
* f_lseek (fatfs.c:4334-4375): bytes between the old end and a position beyond it are whatever was on the device (FatFile Spec.Ran.beyond); a program that relies on zeros gets old data of removed files.
* C77: `f_sync` clears `FA_MODIFIED` whatever `sync_fs` returned (fatfs/fatfs.c:3951-3952). If writing the directory entry fails, a second `f_sync` or `f_close` returns success without storing anything. The write of the FSInfo sector is not checked (844-846), and neither is `fp->err` in `f_sync`.
* `sync_fs` writes free counts to sector `volbase + 1`; `mount_volume` does not check that there are at least two reserved sectors, so on a FAT32 volume with one reserved sector it would overwrite the start of the FAT. The theorems of C77 assume that it is another sector (`PlaceOk.info`).
* C78: `mount_volume` multiplies the size of a FAT by the number of FATs in 32 bits, without check. A boot sector with a FAT of 2^31 sectors and two FATs is accepted on a volume of 64 Mbytes, with data starting where the FAT starts (`C78_overlap`); `sysect` and the sum with the start of a partition wrap around as well.
* C78: on FAT32 with a single reserved sector and BPB_FSInfo 1, the first sector of the FAT is taken as the sector for free counts; `sync_fs` would overwrite it with the free counts (`C78_info_overlap`).
* C78: a partition entry with start 0xFFFFFFFF is the number that stands for an invalid window, so `move_window` reads nothing and the sector with the partition table is looked at again. Harmless, as it is no volume.
* C79: create_partition clears FF_MAX_SS = 4096 bytes of the work buffer whatever its length: undefined behaviour for a smaller buffer (fatfs/fatfs.c:5569; the command format uses 4096 bytes).
* C79: f_mkfs does not look at the results of the three transfers for FAT32 free counts (fatfs/fatfs.c:6099-6109): success is reported although the sector may be wrong.
* C79: with a block size of more than 16 sectors f_mkfs can make a volume without clusters, which f_mount refuses (both drivers report 1).
* C79: format sd: refuses every card of less than 66138 sectors (32.3 megabytes) because it asks for FAT32 only (kernel/cmd/cmd_format.c:28).
* C80: dir_next links a new cluster of a directory, and dir_clear writes the FAT to the device before it clears the cluster (fatfs/fatfs.c:1407-1431, 1517-1530). If the power fails between, the directory shows old contents of the cluster as objects, with clusters that belong to other files.
* C86: f_rename does not compare the directory to be moved with the new place (fatfs/fatfs.c:4981-5031): `rename A A/C` succeeds, after that A and all below it cannot be reached and the clusters are lost (C86_violated, C86_lost).
* C86: f_rename takes the second entry of a directory that it moves for `..` if its second byte is a dot (fatfs/fatfs.c:5023-5026). In a directory without `.` and `..` this may be another entry, whose first cluster is overwritten then.
* C86: `rename X /` says FR_INVALID_NAME instead of FR_EXIST if X is the first entry of the root directory, because the places of both are the same (fatfs/fatfs.c:4997).
* C88: f_stat does not read the long name of the object; the buffer holds the last segment of the path when get_fileinfo copies it (fatfs/fatfs.c:4575-4581, 2375-2390). So the name told is spelled as in the path, not as stored (C88_violated).
* C88: f_stat of a directory leaves fstartblk as it was (fatfs/fatfs.c:2482-2485); callers that do not set it before read an undetermined value.
* C89: f_blocks of f_statfs is the number of all sectors divided by the cluster size, not the number of data blocks as include/fpm/fs.h:78 says (fatfs/fatfs.c:4704): the command mount counts the FATs and the root directory as used space.
* C89: on FAT16 and FAT32 f_statfs scans from entry 0 (fatfs/fatfs.c:4668-4690), so on a volume where entry 0 or 1 of the FAT is zero it counts one or two free clusters too many.
* C90: fpm_load_arch (pico/flash.c:225) takes fstartblk = 0 for the sign of a fragmented file, but f_stat sets fstartblk for every file (fatfs/fatfs.c:2482-2485); it is 0 for empty files only. Fragmented programs are executed with foreign bytes in them (C90_violated).
* C90: fstartblk is a sector number, and is multiplied by the bytes of a cluster (pico/flash.c:231): with more than one sector in a cluster every address is wrong. Files on sd: are looked up in flash memory. A directory x.exe is taken for a program at an address computed from an uninitialised variable (C90_kind_violated).
* C91: in a directory moved into itself (C86) f_getcwd goes round in the cycle until the buffer is full, and says FR_NOT_ENOUGH_CORE (C91_lost). The text for this error is "Cannot allocate memory" (fatfs/strerror.c:24), which misleads the user of the command cd.
* C91: f_getcwd does not mount the volume (fatfs/fatfs.c:4106-4109): before the first access by path to the current disk the command cd without a path says that there is no filesystem. With a buffer of zero bytes it writes one byte outside (fatfs/fatfs.c:4118); callers pass 4096.
* C92: `rm -rf dir` still asks: remove_directory does not look at the option (kernel/cmd/cmd_remove.c:130-139). In verbose mode the last child is shown instead of the directory when that is removed (kernel/cmd/cmd_remove.c:111-112).
* C92: `rm -r ..` and `rm -r A/..` empty the parent directory: f_unlink refuses the name, f_opendir does not, and the command does not look at which error it was (kernel/cmd/cmd_remove.c:55-66). So does a read-only or current directory lose its contents, though it cannot be removed itself.
* C92: `rm -r A/B/../../A` fails midway, because its own path leads through B. A directory with more levels than there are places for open objects (FF_FS_LOCK, 16) loses part of its contents, then there is FR_TOO_MANY_OPEN_FILES. In a directory that has been moved into itself (C86) the recursion has no bound but that table, at 16 levels of about 600 bytes of stack each and more.
* C92: names are put into the path as they are: a long name with a separator in it, which a volume from elsewhere may have, makes the command remove something else.
* C93: a file that is cut at a sector boundary keeps in its buffer a sector of a cluster it has given back. If another file takes this cluster, writes it and gives it back, and the first file is then extended by f_lseek so that it gets the cluster again, f_read finds that the sector is already in the buffer (`fp->sect == sect`) and gives the old bytes; after any access elsewhere the same position of the file reads differently. f_truncate (fatfs/fatfs.c:4719-4764) does not reset fp->sect.
* C94: `copy_file` ignores the results of `f_close`. If `f_sync` in `f_close` fails, the copy is not complete, but there is no message; and the entry in the table of open objects is not released, while the file object is gone, so that it stays in use until the volume is mounted again. (Not reachable in the theorem, which is for devices that do not fail.)
* C94: a copy that has no room is left on the volume with the part that had room. If the file was there before, its old contents are lost then: it is emptied before it is known whether there is room.
* C95: `flash_write` and `flash_read` check `offset + nbytes` with 32 bits. A request for block 2^20 - 16 and 16 blocks has the sum 2^32, that is 0, and passes; `flash_base_offset + offset` wraps too, and the last 64 kbytes before the disk, which are part of the firmware, are erased and written. The volume can ask for such blocks: `f_mount` does not compare the size in the boot sector with that of the medium.
* C95: `flash_read` with 2^20 blocks has `nbytes` 0 and succeeds without reading anything; `flash_write` checks `nbytes`, `flash_read` checks `count`.
* C95: if the firmware is larger than the chip is thought to be, `num_bytes` wraps to almost 2^64 and all requests pass.
* C96: neither function checks whether the object is open, so closing a file later sets its archive attribute and its time again; documented as such here, not as a violation.
* C98: `char label[32]` of kernel/cmd/cmd_vol.c:33 is two bytes too short for an exFAT label of eleven characters of three bytes each (e.g. CJK); f_getlabel writes behind it. f_getlabel also takes the number of units of the entry as it is, up to 255, so a damaged volume can write much more.
* C97 (not modelled): on exFAT f_setlabel calls `strchr(&badchr[7], (int) dc)`, which looks at the low byte of the character only, so labels with e.g. U+0100 or U+012F are refused.
* C99: `cd sd:/dir` sets the current directory of `sd`, but not the current drive, as in DOS; the path that `cd` prints does not lead back by `cd` alone if the drive has been changed.
* C99: the shell takes every command that ends with a colon as a drive name, but f_chdrive looks for the first colon only, so `sd:x:` changes the drive.
* C100: `mv -f a b` with an existing file b, and `mv a b` after the answer y, never replace b: rename_file (kernel/cmd/cmd_rename.c:51) calls f_rename, which fails with FR_EXIST, and b is not removed before.
* C101: `mv a a` with a directory a (or `mv a a/b`) makes a an entry of itself: f_rename has no check for this, all files in a are lost and their clusters stay in use.
* C100: a destination that is no valid name passes for a directory (kernel/cmd/cmd_rename.c:138-145), as FR_INVALID_NAME is taken for the root directory; then the message is that of the rename to `dst/name`.
* C100 (not proved): with `mv sd:foo bar` the check whether bar exists looks at the current drive, but f_rename takes the drive of sd:foo; `mv sd:foo dir` builds the path `dir/sd:foo`, which is refused.
* pico/sd_pico/sd_card.c:487-499: the comment says that a card without response is initialised again "only once!", but after a successful initialisation `goto retry` starts anew without bound; a card that answers everything but one command keeps the caller for ever (C105).
* pico/sd_pico/sd_card.c:1151-1162: if ACMD41 does not become ready in time, sd_init_medium returns status 0; the mistake is noticed only as CMD9 fails afterwards.
* pico/sd_pico/sd_card.c: sd_read_blocks with count 0 sends CMD17 and does not take the block from the card; callers never do so.
* pico/sd_pico/sd_card.c:487-499: if another card has been inserted, the command of the request is repeated with the address for the old card, and a write goes to the new card.
* apps/printf/printf.c:272, 281, 292: strchr finds the final zero of its set, so that a format that ends within a directive (`printf %`) is read beyond its end; the test of line 294 can never succeed (C107_percent).
* apps/printf/printf.c:265: %% is replaced by % and a zero in the format itself, so that the format is cut there, and read beyond, when it is used again (C107_reuse).
* apps/printf/printf.c:66: bcopy into buf[64] of all text before an integer directive, however long (C107_long).
* apps/printf/printf.c:48-56: a field width or precision 0 given by * (also when the argument is missing) is not passed on, so that fpm_printf takes the value as width and reads an argument that is not there (C107_star).
* apps/printf/printf.c:196: the message about a width above 65535 names the next argument, or uses a null pointer (C107_width).
* apps/printf/printf.c:63: %X prints lower-case digits.
* `sd_configure` (pico/sd_pico/sd_card.c:1332-1341): a slot whose card answers the quick check but is not initialised keeps its port set up; without a card every call checks all slots again (a second or so each).
* **SD card exchanged (C109).** `sd_cmd` initialises a new card in the middle of a request and repeats the command, but its argument was computed for the old card: after a high capacity card has been replaced by one of standard capacity, writing sector 512 j overwrites sector j of the new card, and reports success.
* **gpio (C110).** Nothing checks that an argument is a number or that the pin exists: `gpio x=1` sets pin 0, `gpio 1=-5` sets the pins 1 to 5 (the dash of the value is taken for a range), `gpio 30` and up access pins the chip does not have (`gpio 0--1` does not end), `gpio out 1=1` ignores the level.
* C111: `cp -r` keeps one directory open per level, and FF_FS_LOCK allows 16 open objects: files more than 14 levels down are not copied (with a message "Too many open files").
* C111: if f_readdir fails in `cp -r`, the rest of the directory is left out without a message.
* C112: `cp -r foo foo/bar` is not refused; the copy is copied into itself until no more directories can be opened: 17 directories bar in each other, and a message.
* C113: uf2fat loses, without a message, one of two files whose names differ only in upper and lower case; for two such directories it ends with an error.
* C114: `vol -t` leaves diskspeed.data on the disk and open after an error; 16 times, and no file can be opened any more. It also overwrites a file of that name. On Unix ^C at a question of `cp -r` leaves directories open. When f_close fails the object stays open until the drive is unmounted.
* Removing a file on a FAT12 volume whose FAT has more than one sector: an entry of the FAT may be in two sectors, written one after the other; if power is lost between them, the left over chain may run into another file (C115_violated).
* f_expand does not find a free block of the size needed if the block contains the place where the search starts (the cluster allocated last) as an inner cluster: it says FR_DENIED though there is room (C116_missed).
* f_expand counts free clusters across the end of the FAT: if the last clusters and cluster 2 are free, it takes them for a block, links the last clusters, and fails with FR_INT_ERR at the end of the FAT. These clusters are lost, and are still counted as free (C116_lost).
* Moving a file writes the new entry before the old one is removed, as it must not to lose it; if power is lost in between, both names refer to the same clusters, and removing one of them frees the clusters of the other (C117_violated).
* `ls A/B` does not list the directory A/B, but looks for B in the current directory: list_append_name keeps only the name that f_stat tells (C118_violated).
* `ls` with an argument of more than 255 bytes for which f_stat says FR_INVALID_NAME overflows `fname` of 256 bytes on the stack; 86 characters typed suffice (C118_safe_violated).
* `ls -R` lists hidden directories, and those below, without -a, though it does not show their names (C119_violated).
* `EXIT` (C121): exit is the only name that is not recognised in upper case; help lists it with the others.
* `echo -- x` prints the help text of echo, `echo a -- x` prints only a (C123).
* On FAT12 volumes whose FAT has two or more sectors, f_mkdir may write one half of the new cluster's entry before the other; if power is lost in between, the cluster leads to a free one (C124_violated). Nothing refers to the cluster at that time.
* format asks for confirmation with an array of 32 items of two bytes, and passes its size in bytes to fpm_editline, which takes it for the number of items: from the 32nd character on, what is typed overwrites the stack (C125_violated); fpm_shell has the same mistake (C28).
* On FAT12 volumes whose FAT has two or more sectors, f_open with FA_CREATE_ALWAYS may clear one half of an entry of the FAT before the other; if power is lost in between, an unused cluster leads into another file (C126_violated). A new file is on the device only after a later flush: f_open leaves its entry in the window.
* C132: `vol -t` overwrites and removes a file diskspeed.data of the user (kernel/cmd/cmd_vol.c:134, 183), and returns without closing and removing its own when a write, the rewind or a read fails (lines 155, 164, 175). For less than two microseconds the speed of 8 megabytes would not fit into 32 bits.
* C133: the mount number has 16 bits (fatfs/fatfs.c:324, 3267): after 65536 mounts a file opened before the volume was ejected is accepted again, and would write to the new medium. `f_mount` returns FR_OK for a mounted volume without asking the drive (line 3337), though its medium may have been taken out; f_unmount writes nothing back, so what open files have not yet written is lost on eject, without a message.
* C134: `eject x` with any argument without a colon ejects the current drive, as `mount x` mounts it (fatfs/fatfs.c:2885-2888): `eject sd`, with the colon forgotten, ejects flash when this is the current drive, and reports nothing.
* C135: when fstat or mmap fails, `fpm_load_arch` closes the descriptor and leaves it in the context, and `fpm_load` then calls `fpm_unload_arch`, which closes it again and unmaps MAP_FAILED (unix/loader_unix.c:27, 34-36, kernel/fpm_loader.c:68); an empty file named *.exe is enough. `fpm_execv` returns without unloading when there is no space for stack or heap (kernel/fpm_exec.c:145-154).

## Plan and result per property

A property is `partial` when the code violates the statement for some inputs: then `Cxx_full`/`Cxx_violated`
state and refute it, and the theorems ending in `_partial` prove it for the remaining inputs.

| id | property | model and proof | result |
|----|----------|-----------------|--------|
| C01 | Live heap blocks are in bounds, aligned, large enough and pairwise disjoint | Alloc.lean: byte memory, headers and next-pointers in memory, every function of fpm_alloc.c; invariant by induction over histories that interleave calls with arbitrary client stores. | partial: `Alloc.C01_violated`, `Alloc.C01_blocks_partial`, `Alloc.C01_calls_return` Proved for every legal history of every program in the context chain on 32- and 64-bit machines while request sizes stay clear of the size_t wrap-around; for sizes that wrap the claim is false (witness). |
| C02 | Heap contents are isolated and fpm_alloc zero-fills | same model; frame lemmas for memory, carried through the history invariant. | proved: `Alloc.C02_zero_fill`, `Alloc.C02_isolation`  |
| C03 | Free-space accounting is exact | same invariant (free_size = sum of free list = region minus live sizes). | proved: `Alloc.C03_accounting`  |
| C04 | Freeing coalesces completely | same invariant (no adjacent free blocks) plus 'free everything' theorem over permutations. | proved: `Alloc.C04_coalesced`, `Alloc.C04_one_block`, `Alloc.C04_free_all`, `Alloc.C04_as_fresh`  |
| C05 | Allocation fails only when no free block fits, and then changes nothing | first-fit specification over the abstract free list; refinement from the memory-level walk. | proved: `Alloc.C05_first_fit`, `Alloc.C05_no_waste`  |
| C06 | fpm_realloc preserves contents | memory-level fpm_realloc, contents compared byte by byte. | proved: `Alloc.C06_realloc`, `Alloc.C02_isolation` Release exactly once follows with C03_accounting on the resulting reachable state. |
| C07 | fpm_truncate never moves or damages a block | memory-level fpm_truncate. | partial: `Alloc.C07_violated`, `Alloc.C07_truncate_partial` False for sizes near SIZE_MAX (witness on 32 bits: the block is cut to 0 bytes); proved with the exact size for all others. |
| C08 | Absurdly large requests are refused | size_t wrap-around modelled exactly; negation with witness, positive theorem for requests below the wrap. | partial: `Alloc.C08_violated`, `Alloc.C08_writes_outside`, `Alloc.C08_refused_partial` The code violates the property; negation proved for 32- and 64-bit, the rest proved. |
| C09 | A nested program cannot disturb its parent's heap | child history runs in a sub-region; frame theorem: every address outside the child's region is unchanged. | proved: `Alloc.C09_child_isolated`, `Alloc.C09_pop_restores`  |
| C10 | Context push takes the largest free block or refuses | scan for the maximum modelled at memory level. | proved: `Alloc.C10_push`  |
| C11 | Console characters survive UTF-8 transport | Utf8.lean: bytes as Nat<256/UInt8, console as byte lists. | proved: `C11_char_roundtrip`, `C11_string_roundtrip` All 16-bit characters and all strings. |
| C12 | fpm_puts and fpm_utf8len agree with the character view of a string | Utf8.lean, induction on strings. | proved: `C12_puts_and_lengths` All NUL-free 16-bit character strings. |
| C13 | Bounded copies stay in bounds, terminate and report the source length | Strlcpy.lean: destination as bounded array, out-of-bounds store = UB. | proved: `C13_strlcpy` One model for fpm_strlcpy and fpm_strlcpy_unicode (same code on different item types). |
| C14 | UTF-8 string conversion round-trips | Strlcpy.lean. | proved: `C14_from_utf8`, `C14_to_utf8_exact`, `C14_roundtrip`  |
| C15 | fpm_strlcpy_to_utf8 never writes more than nitems bytes | Strlcpy.lean, expected to be violated: negation + partial. | partial: `C15_violated`, `C15_partial`, `C15_shell_line` The code violates the property (budget counted in characters); negation proved with witness, safe region and the shell's own use proved. |
| C16 | Malformed UTF-8 input is not read past its terminator | expected to be violated: negation + partial for well-formed text. | partial: `C16_puts_violated`, `C16_puts_partial`, `C16_from_utf8_violated`, `C16_from_utf8_partial` The code violates the property for truncated multibyte sequences; proved for well-formed text. |
| C17 | Any argument vector can be quoted | Tokenize.lean: quoting function as separate spec. | proved: `Tok.C17_quoting_roundtrip` All argument lists, each argument in any of three quoting styles; the argument vector is assumed larger than half the line. |
| C18 | Tokenizing in place equals the shell-word specification | in-place array machine refined to a pure word grammar. | proved: `Tok.C18_inplace_refines_words`  |
| C19 | Tokenizer errors exactly on incomplete quoting | same refinement. | proved: `Tok.C19_error_iff_open`  |
| C20 | Tokenizer writes stay inside the command line | write-set of the machine; expected to be violated by one byte: exact bound + negation. | partial: `Tok.C20_violated`, `Tok.C20_exact_partial`, `Tok.C18_inplace_refines_words` The code violates the property (extra NUL one byte past the terminator); exact criterion proved, and that one spare byte always suffices. |
| C21 | Tokenizer never yields an empty argument and argc is bounded by the line length | corollary of the refinement; shell capacity expected to be violated. | partial: `Tok.C21_args_nonempty_and_bounded`, `Tok.C21_shell_violated`, `Tok.C21_shell_partial` The count bound holds; the shell's 42-entry vector is too small for lines of 83 or more characters (witness), safe up to 82. |
| C22 | Option parsing visits every argument once, in order | Getopt.lean: state machine over argv; independent grammar. | partial: `Getopt.C22_violated`, `Getopt.C22_parse_partial` `--` as first argument is not recognised (negation proved); proved for all other command lines over declared options. |
| C23 | Short option clusters behave like separate options | Getopt.lean. | proved: `Getopt.C23_cluster`, `Getopt.C22_parse_partial`  |
| C24 | Long options accept exact names and unambiguous prefixes | Getopt.lean. | partial: `Getopt.C24_violated`, `Getopt.C24_resolve_partial`, `Getopt.C24_unknown`, `Getopt.C24_ambiguous` An exact name preceded by two longer names is reported ambiguous (negation proved); everything else proved. |
| C25 | Option parsing always terminates and recovers after an error | Getopt.lean: termination measure; recovery expected to be violated. | partial: `Getopt.C25_safe_violated`, `Getopt.C25_recover_violated`, `Getopt.C25_terminates`, `Getopt.C25_safe_partial`, `Getopt.C25_short_recovers` Unknown long options leave the parser inside the next argument (negations proved); termination proved for all inputs, safety for all without unknown long options. |
| C26 | The line editor implements cursor editing and respects the buffer | Editline.lean: buffer array machine vs zipper. | proved: `Editline.C26_refines`, `Editline.C26_capacity`  |
| C27 | The screen always shows the edited line | Editline.lean + ideal terminal model (one unbounded row). | proved: `Editline.C27_display` Ideal terminal: one unbounded row. |
| C28 | The shell's line buffer cannot overflow | expected to be violated (size passed in bytes): negation + partial. | partial: `Editline.C28_violated`, `Editline.C28_safe_partial` The shell passes the size in bytes for a 128-character buffer (negation proved); with the element count the call is safe for all inputs. |
| C29 | History recall is lossless | Editline.lean. | proved: `Editline.C29_recall`  |
| C30 | Key decoding is total and resynchronises | GetKey.lean: byte streams as lists. | partial: `GetKey.C30_violated`, `GetKey.C30_decode_partial`, `GetKey.C30_total` Numbers in escape sequences are taken modulo 2^32 (negation proved); proved for all input with numbers below 2^32, totality for all input. |
| C31 | Day of the week is correct for every Gregorian date | Dotw.lean: calendar specification by day counting. | proved: `Calendar.C31_day_of_week`, `Calendar.C31_consecutive` All valid dates up to year 1.7e9, where int arithmetic begins to overflow. |
| C32 | 12-hour display of time is faithful | Clock, finite domain. | proved: `Calendar.C32_clock` Whole domain of 24 hours. |
| C33 | Directory listing is a sorted permutation of the directory | DirSort.lean: linked list merge sort as list functions. | proved: `Dir.C33_sorted`, `Dir.C33_single_column` For every directory contents. |
| C34 | Time-sorted listing is newest first | 32-bit comparator; expected to be violated for distant dates. | partial: `Dir.C34_violated`, `Dir.C34_newest_first_partial` Stamps are compared as signed ints: files dated 2044 or later are listed as oldest (negation proved); proved for stamps below 2^31. |
| C35 | Columnated listing shows each file once and fits the terminal | DirCols.lean. | proved: `Dir.C35_columns` For every list of names and every screen width. |
| C36 | File sizes are printed exactly and aligned | DirSize.lean. | proved: `Dir.C36_size`, `Dir.C36_long_listing` For every 64-bit size. |
| C37 | cat never staircases and never alters text | Cat.lean. | partial: `Cat.C37_violated`, `Cat.C37_cat_partial`, `Cat.C37_crlf_unchanged`, `Cat.C37_total` Malformed UTF-8 loses text (negation proved); proved for all NUL-free UTF-8 texts, composed with the model of f_gets; termination and memory safety for all files. |
| C38 | printf escape processing is in place, safe and complete | PrintfEsc.lean. | proved: `PrintfEsc.C38_escape`, `PrintfEsc.Unesc.unique` All strings; the rules are shown to determine the result. |
| C39 | Dynamic binding is complete and shadowing | Loader.lean. | proved: `Loader.C39_binding` All images that consistently describe a program (64-bit and 32-bit layout), all chains of link maps. |
| C40 | Running a program releases everything it acquired | Exec.lean: event trace; expected to be violated on two failure paths (and by ^C). | partial: `Exec.C40_path`, `Exec.C40_path_tight`, `Exec.C40_drive`, `Exec.C40_violated`, `Exec.C40_released_partial` Negation proved; exact characterisation of the outcomes after which everything has been released; path buffer proved to suffice, exactly. |
| C41 | Block device access never leaves the medium | DiskIo.lean: 32-bit arithmetic; expected to be violated by wrap-around. | partial: `DiskIo.C41_violated`, `DiskIo.C41_write_violated`, `DiskIo.C41_flash_violated`, `DiskIo.C41_image_violated`, `DiskIo.C41_unix_read_partial`, `DiskIo.C41_unix_write_partial`, `DiskIo.C41_flash_partial`, `DiskIo.C41_image_partial` 32-bit wrap-around of byte offsets (negations proved); exact behaviour proved for all accesses below 4 GB. |
| C42 | CRC tables implement the stated polynomials | Crc/Model.lean: all four tables transcribed and every entry shown equal to 8 steps of long division; each byte step multiplies by X^8 and adds the byte modulo the generator; induction over the message. | proved: `Crc.C42_crc7`, `Crc.C42_update16`, `Crc.C42_crc16`, `Crc.C42_ccitt`, `Crc.C42_crc32`, `Crc.C42_pieces`, `Crc.C42_unique` Remainders of polynomials over ZMod 2 (Mathlib), all message lengths and, where the code allows, all start registers. Assumes plain char is unsigned (ARM). |
| C43 | CRC detects every single corrupted byte and every burst up to its width | From C42: the difference of the messages is X^k times a polynomial of degree below the generator, which is coprime to X, so equal CRCs force it to be zero. | proved: `Crc.C43_crc7`, `Crc.C43_update16`, `Crc.C43_ccitt`, `Crc.C43_crc32`, `Crc.C43_byte`, `Crc.C43_crc7_tight`, `Crc.C43_not32` Every change inside a window as wide as the code; C43_crc7_tight shows the 7-bit window cannot be widened to a byte. |
| C44 | ZMODEM hex headers round-trip | Zmodem/Model.lean: encoder and header reader against the wire format of Zmodem/Spec.lean. | partial: `Zmodem.C44_violated`, `Zmodem.C44_encode`, `Zmodem.C44_roundtrip_partial`, `Zmodem.C44_corrupt` On targets with signed plain char no hex header is accepted (negation proved: its last byte is 0x8a); proved where char is unsigned (ARM). Encoding and detection of any one changed digit proved for all targets. |
| C45 | Escaped data subpackets are decoded exactly | Zmodem/Model.lean against inductive definitions of what a sender may send (Wire, Sub) and what a receiver may take for it (Syms, GoodSub). | partial: `Zmodem.C45_violated`, `Zmodem.C45_block_partial`, `Zmodem.C45_pico`, `Zmodem.C45_header_partial`, `Zmodem.C45_accept`, `Zmodem.C45_accept_header`, `Zmodem.C45_detect` Decoding proved for every target where the bytes of the stream arrive (Clean), and without exception on the Pico; violated on x86-64 (bytes >= 0x80). Converse (nothing but subpackets with a good check is accepted) for all inputs and targets. |
| C46 | The receiver's data buffer is never overrun | Zmodem/Model.lean: the buffer as a list with an undefined outcome for writes outside; all byte streams. | partial: `Zmodem.C46_buffer`, `Zmodem.C46_header`, `Zmodem.C46_space`, `Zmodem.C46_cancel_violated`, `Zmodem.C46_cancel_partial` Memory safety for all inputs and targets. While a header is awaited six cancel characters are needed, not five (negation proved). |
| C47 | A received file is the in-order concatenation of the good subpackets | Zmodem/Model.lean: session state machine with an arbitrary file system; invariant over all inputs and acts prescribed for conforming sessions. | partial: `Zmodem.C47_orderly`, `Zmodem.C47_session`, `Zmodem.C47_file_partial`, `Zmodem.C47_positions_violated`, `Zmodem.C47_closes_violated` C47_orderly holds for all inputs and all file system behaviours; sessions proved for any number of files. With two files the second one is asked for from a wrong position and the first is never closed (negations proved). Assumes a zero byte behind the header buffer (C48). |
| C48 | Sending a hex header transmits exactly the header bytes | Zmodem/Model.lean; expected to be violated (no terminator). | partial: `Zmodem.C48_violated`, `Zmodem.C48_not_full`, `Zmodem.C48_send_partial`, `Zmodem.C48_pos_partial`, `Zmodem.C48_flags_partial` Every hex header sent reads past its 17-byte buffer (proved for all headers); if a zero byte follows, exactly the header is sent. |
| C49 | On-disk integers are little-endian and round-trip | FatBytes/Model.lean: ld_/st_ functions on byte lists, out of range is an outcome. | proved: `FatBytes.C49_load`, `FatBytes.C49_store`, `FatBytes.C49_roundtrip` Byte level, all lengths, all values; bytes outside the field unchanged. |
| C50 | FAT entries are independent | Fat/Model.lean: get_fat, put_fat on a device with a window that may fail; Fat/Spec.lean: the FAT as one number, entries as its digits; frame lemmas per byte. | proved: `Fat.C50_get`, `Fat.C50_put`, `Fat.C50_range` All geometries a mount accepts, all device contents and states of the window, all clusters, values and device failures. |
| C51 | Cluster chains stay disjoint and acyclic | Fat/ChainModel.lean: create_chain on the device model of C50; Fat/ChainSpec.lean: chains as disjoint lists covering the table; search loop by invariant on the clusters looked at. | proved: `Fat.C51_new`, `Fat.C51_stretch`, `Fat.C51_followed` All geometries, well-formed FATs, states of the window, device failures; the cached number of free clusters is unknown or right (mount takes it from the FSINFO sector unchecked). |
| C52 | Removing a chain frees exactly that chain | Fat/ChainModel.lean: remove_chain; induction on the chain. | proved: `Fat.C52_remove`, `Fat.C52_truncate` Whole chains and rests of chains; under device failures all other chains stay intact. |
| C53 | A crash between FAT updates never cross-links files | Fat/ChainSpec.lean: all device contents since the start (recorded in the state); every content is an earlier view of the program unless an entry is written in two halves; expected to be violated for FAT12. | partial: `Fat.C53_crash_partial`, `Fat.C53_kinds`, `Fat.C53_violated` All crash points of create_chain and remove_chain where no FAT entry crosses a sector border (all FAT16, FAT32); violated for such entries of FAT12 (negation proved). Directory entries are not part of it. |
| C54 | File read/write/seek behave like a byte array with a position | FatFile/Model.lean: f_read, f_write, f_lseek, f_truncate on the device and FAT model of C50-C52, one file object with its sector buffer; Spec.lean: an array with a position; refinement through the contents of the chain overlaid with the buffer, one lemma per round of each loop. | proved: `FatFile.C54_step`, `FatFile.C54_history`, `FatFile.C54_readback`, `FatFile.C54_stuck`, `FatFile.C54_other_files`, `FatFile.C54_written` Any history of read, write, seek and truncate on one open file, any cluster size, with disk full and size limit exactly stated; on a failing device an operation reports an error and other files keep chain and contents. Bytes between old end and new end after seeking beyond the end are unspecified, as in the code. |
| C55 | File locks admit one writer or many readers | FatLock/Model.lean: lock table; FatLock/Spec.lean: histories of opens, closes, removals, mounts; invariant relating table and open handles. | partial: `FatLock.C55_exclusive_partial`, `FatLock.C55_unique`, `FatLock.C55_removed`, `FatLock.C55_failed`, `FatLock.C55_empty`, `FatLock.C55_opens`, `FatLock.C55_violated`, `FatLock.C55_dir` All histories in which no object is open more than 255 times at once; with 256 readers a writer is let in (negation proved). Locks of open directories do not prevent their removal (C55_dir). |
| C56 | Long file names round-trip through directory entries | Lfn/Model.lean: put_lfn, pick_lfn, cmp_lfn, sum_sfn on 32-byte entries and the 256-unit buffer; Lfn/Spec.lean: layout of the entries of a name. Expected to be violated for U+FFFF, which the code uses as filler. | partial: `Lfn.C56_stored_partial`, `Lfn.C56_read`, `Lfn.C56_compare`, `Lfn.C56_defined`, `Lfn.C56_checksum`, `Lfn.C56_violated` All names without U+FFFF; violated for U+FFFF (negation proved). Reading and comparing hold for all entries in the specified layout; bounds for arbitrary entries. |
| C57 | File-name transcoding is lossless | FatUtf.lean. | partial: `TextIo.C57_roundtrip`, `TextIo.C57_violated`, `TextIo.C57_accepts_partial`, `TextIo.C57_in_bounds`, `TextIo.C57_surrogate` Round trip proved for all scalar values; overlong forms are accepted (negation proved), everything else malformed is rejected. |
| C58 | Wildcard matching implements ? and * | Glob/Model.lean: pattern_match on byte lists, loops with a bound on rounds whose exhaustion is an outcome; Glob/Spec.lean: inductive meaning of patterns on code points. Expected to hold up to the recursion limit; violated by 256 question marks in a row, where the counter reaches the asterisk bit. | partial: `Glob.C58_match_partial`, `Glob.C58_defined`, `Glob.C58_violated` Sound for patterns with at most 255 question marks, complete up to four groups of wildcards; always defined on arbitrary bytes; violated for 256 question marks (negation proved). |
| C59 | Rewriting a program's jump table routes import i to slot i | Elfexe/Model.lean: the tool on the bytes of the mapped file; Elfexe/Spec.lean: small interpreters of the instructions of the stubs, tables as lists of entries with their numbers. Expected to be violated for arm32 (byte offset instead of slot) and arm64 with more than 512 imports. | partial: `Elfexe.C59_amd64`, `Elfexe.C59_amd64_total`, `Elfexe.C59_arm64_partial`, `Elfexe.C59_arm64_total`, `Elfexe.C59_arm64_violated`, `Elfexe.C59_arm32_partial`, `Elfexe.C59_arm32_one_partial`, `Elfexe.C59_violated`, `Elfexe.C59_file`, `Elfexe.C59_again` Proved for x86-64; for arm64 up to 512 imports, wrong beyond (C59_arm64_violated); for arm32 only the first import gets its slot (negation proved). C59_file and C59_again lift the results to whole files. |
| C60 | A saved UF2 image reproduces the flash contents | Uf2/Model.lean: the tool on the bytes of the files; Uf2/Spec.lean: flashing of UF2 files after the format description, program, extent, image. | partial: `Uf2.C60_format_partial`, `Uf2.C60_total`, `Uf2.C60_again`, `Uf2.C60_size`, `Uf2.C60_size_hex`, `Uf2.C60_size_lax`, `Uf2.C60_violated` All programs whose end is not within 128 kbytes of the end of the 32-bit address space (there the start wraps around, negation proved) and whose file has a last block; file systems as arbitrary lists of sectors. |
| C61 | Copying a file copies every byte | Copy.lean. | partial: `Copy.C61_violated`, `Copy.C61_copy_partial` The result of f_close is ignored (negation proved); otherwise proved for all files and all patterns of short reads and writes. |
| C62 | Copying into a directory appends each source's own base name | Copy.lean; expected to be violated for trailing slashes. | partial: `Copy.C62_violated`, `Copy.C62_uninitialised`, `Copy.C62_stale_name`, `Copy.C62_copy_partial`, `Copy.C62_move_partial`, `Copy.Last.exists` Overrun, uninitialised bytes and stale names (negations proved); proved for sources without trailing slash and names up to 255 bytes, mv also with trailing slashes. |
| C63 | The shell prompt fits its buffer | Prompt; expected to be violated. | partial: `Exec.C63_violated`, `Exec.C63_fits_partial`, `Exec.C63_no_cwd` Long directory names overrun the buffer (negation proved); exact characterisation of the directories that fit. |
| C64 | Text line I/O round-trips | FatText.lean. | partial: `TextIo.C64_violated`, `TextIo.C64_lines_partial`, `TextIo.C64_puts`, `TextIo.C64_puts_in_bounds`, `TextIo.C64_gets_in_bounds`, `TextIo.C64_pieces` f_gets needs three spare bytes (negation proved); round trip proved with them. |
| C65 | Dates accepted by the date command exist | Calendar/Model.lean: the range test of the date command; expected to be violated (31 February). | partial: `Calendar.C65_violated`, `Calendar.C65_date_partial` 31 February is accepted (negation proved); all existing dates are accepted with the right weekday, and nothing beyond day 31. |
| C66 | File time stamps are faithful and ordered | Calendar/Model.lean: packing, storing and unpacking the 32-bit FAT time stamp. | partial: `Calendar.C66_violated`, `Calendar.C66_stamp_partial`, `Calendar.C66_order` From 2108 on the 7-bit year wraps (negation proved); proved for 1980..2107. |
| C67 | Loading any file is memory-safe | Loader/Model.lean: reads outside the image are an outcome; expected to be violated. | partial: `Loader.C67_violated`, `Loader.C67_safe_partial` The loader checks no offset of the file (negation proved); safe for consistent files. |
| C68 | A successful SD card transfer moved all blocks | DiskIo/Model.lean: block loops of the SD driver against an arbitrary card; expected to be violated for writes. | partial: `DiskIo.C68_violated`, `DiskIo.C68_zero`, `DiskIo.C68_write_partial`, `DiskIo.C68_read` Rejected blocks are reported as written (negation proved); reads proved. |
| C69 | A received file is stored under the name the sender gave | Zmodem/Model.lean: reading the name as a C string in the data buffer; expected to be violated. | partial: `Zmodem.C69_violated`, `Zmodem.C69_name_partial`, `Zmodem.C69_ub` Names without terminator get the frame end and old buffer contents appended, or the buffer is read past its end (negations proved); names with terminator are used exactly. |
| C70 | Only programs for this machine are loaded | Loader/Model.lean: header checks of fpm_load. | proved: `Loader.C70_native` All byte strings long enough for the fields that are checked. |
| C71 | The second FAT is a copy of the first | Fat/Model.lean: sync_window with its copy to the second FAT; expected to be violated if the copy fails. | partial: `Fat.C71_mirror_partial`, `Fat.C71_violated` On devices that do not fail, after any reads and writes of entries; a failure of the second write is not reported (negation proved). |
| C72 | A damaged FAT neither hangs nor spreads | Fat/ChainModel.lean: loops with a bound on the rounds whose exhaustion is an outcome; measure: used entries. | proved: `Fat.C72_create`, `Fat.C72_remove` All FAT contents, including loops and links to free clusters. |
| C73 | Upper-case conversion is a projection that keeps special characters apart | Upcase/Model.lean: ff_wtoupper with its two tables, reading beyond a table is an outcome; values outside the blocks symbolically, inside by computing over the blocks. | proved: `Upcase.C73_upcase`, `Upcase.C73_alphabets`, `Upcase.C73_pairs` All values; the tables are copied from the source. |
| C74 | File names in paths are taken, shortened and listed faithfully | Names/Model.lean: create_name with its working buffer and the name part of get_fileinfo; loop invariants for the two fields, decoding by C57. | proved: `Names.C74_path`, `Names.C74_text`, `Names.C74_long`, `Names.C74_short`, `Names.C74_same` Arbitrary bytes for reading; all texts of allowed characters; listing for names with and without long name entries. |
| C75 | Directories keep their objects: creating adds one, removing takes one away, names stay unique | FatDir/Model.lean: a table of entries, writes as a list so that each prefix is a crash point; Spec.lean: an inductive relation between tables and objects, with leftovers; the loops preserve or read this relation. | proved: `FatDir.C75_list`, `FatDir.C75_find`, `FatDir.C75_refind`, `FatDir.C75_dots`, `FatDir.C75_register`, `FatDir.C75_created`, `FatDir.C75_numbered`, `FatDir.C75_remove`, `FatDir.C75_garbage`, `FatDir.C75_orphan` Needs a table with nothing behind its end mark (C75_garbage shows why), and, for 8.3 names in a table with leftovers, no orphaned long name that fits by its checksum (C75_orphan); names without U+FFFF (C56). |
| C76 | The firmware looks for the file system where the tool puts it | Uf2/Model.lean: rounding of the end of the program in uf2fat and in the flash driver. Expected to be violated when the program ends at a boundary. | partial: `Uf2.C76_place_partial`, `Uf2.C76_off`, `Uf2.C76_sector`, `Uf2.C76_violated` Exact condition: they agree unless the last 256-byte block of the program ends at a 64-kbyte boundary, where the firmware looks 64 kbytes too low (negation proved). |
| C77 | What f_sync and f_close report as stored is on the device | FatSync/Model.lean: f_sync, sync_fs, st_clust, ld_clust and opening an existing file on top of the model of open files (C54). Spec.lean: what it means for a device to hold a file at a directory entry. An invariant over histories: the file is marked as changed, or nothing is waiting and the device holds it. | partial: `FatSync.C77_sync_partial`, `FatSync.C77_cycle`, `FatSync.C77_reopen`, `FatSync.C77_unique`, `FatSync.C77_violated` Full for one call on a changed file whatever the device does, and for any history from opening to closing on a device that does not fail. Missing: after a call of f_sync that failed, the next one returns success without storing anything (negation proved). |
| C78 | A mounted volume is well formed, a well-formed volume is mounted | Mount/Model.lean: check_fs, find_volume and the FAT part of mount_volume with arithmetic of 32 bits. Spec.lean: layout of a volume as relations between its parts, and a boot sector that describes it by the documented offsets. Checks imply layout when nothing wraps around; a described layout passes every check. | partial: `Mount.C78_safe`, `Mount.C78_mount_partial`, `Mount.C78_accepts`, `Mount.C78_overlap`, `Mount.C78_info_overlap`, `Mount.C78_violated` Safety and acceptance in full. Well-formedness of what is mounted holds for FATs below 2^30 sectors and volumes below sector 2^32 with two reserved sectors if free counts are in use; without these it is wrong (negations proved). exFAT is only recognised. |
| C79 | Formatting makes an empty volume that can be mounted | Mkfs/Model.lean: f_mkfs for FAT12, FAT16 and FAT32 and create_partition with arithmetic of 32 bits. Spec.lean: an empty volume, a partition table with one partition. The search for a cluster size is followed for at most three rounds, which is shown to be enough, and each configuration it ends with is shown to fit; stores into a sector are tracked field by field, transfers by the range of sectors they change. With C78 the volume can be mounted, and has the form all theorems about files start from. | partial: `Mkfs.C79_safe`, `Mkfs.C79_made_partial`, `Mkfs.C79_mounts_partial`, `Mkfs.C79_sd`, `Mkfs.C79_flash`, `Mkfs.C79_no_clusters`, `Mkfs.C79_small_buffer`, `Mkfs.C79_unreported`, `Mkfs.C79_violated` Safety in full. Success means a well-formed empty volume for blocks of up to 16 sectors (the drivers report 1), the number of free clusters stored on devices that do not fail. Beyond that it is wrong (negations proved): larger blocks may leave no clusters, a failure when free counts are written is not reported, and a partition table needs a buffer of 4096 bytes. exFAT is not modelled. |
| C80 | Directories on the device | DirDev/Model.lean: directory functions of fatfs.c on the device, with window, FAT and data. Spec.lean: entries of a directory as those in its sectors, in order. Each function is shown to do on the device what that of FatDir does on the list of entries (a simulation with the position of the directory object), with dir_alloc stretching the chain by cleared clusters; writes reach the device in an order that shows a prefix of the writes at any time. With C75 this becomes a statement about objects. | partial: `DirDev.C80_find`, `DirDev.C80_list`, `DirDev.C80_register`, `DirDev.C80_created`, `DirDev.C80_remove`, `DirDev.C80_crash_partial`, `DirDev.C80_violated` All in full but crashes while an object is created: safe if there is room in the directory; if it gets a new cluster, the FAT is written before the cluster is cleared, and a crash between shows old contents of the cluster as objects (negation proved). What a failing device leaves in the directory itself is not stated. |
| C81 | Paths lead to one place | Tree/Model.lean: follow_path on the device. Spec.lean: a volume with all of its directories (chains disjoint, no two objects share one, each sub-directory object leads to a directory), and where the segments of a path lead, as an inductive relation with one rule per case. Each segment is resolved by find_spec of DirDev and C75; induction over the segments, or over the bytes of any string. | proved: `Tree.C81_place`, `Tree.C81_follow`, `Tree.C81_bytes` In full, for volumes that are trees of directories; nesting is not bounded, and loops of directories are not excluded by the specification. |
| C82 | Removing files and directories | Tree/Model.lean: f_unlink on the device. Spec.lean: reasons not to remove, and trees before and after. Following a path (C81), the test for objects in a directory, dir_remove (C80), remove_chain (C52) and sync_fs are put together; between the steps the volume is a tree with a chain that nothing refers to. | proved: `Tree.C82_unlink`, `Tree.C82_others` Outcome in full on devices that do not fail; on others all but the object and its directory is shown to be kept, and that success means that the object has gone. |
| C83 | Making directories | Tree/Model.lean: f_mkdir on the device. Spec.lean: trees before and after, and reasons for which there is no place. A new cluster (C51) is a chain that nothing refers to; dir_clear and the entries `.` and `..` change only its sectors; dir_register (C80) and the first cluster in the new entry make it a directory of the tree; after a failure the chain is removed (C52). | proved: `Tree.C83_mkdir`, `Tree.C83_found` In full for devices that do not fail. Names with the unit 0xFFFF are left out (C75). |
| C84 | Opening files | Tree/OpenModel.lean: f_open on the device, with the table of open objects of C65. OpenSpec.lean: reasons to refuse, trees before and after, the file object as array with position (C54). follow_path is C81, dir_register C80, remove_chain C52; the emptied entry has the same name, so that the directory is as before; the loop that looks for the last cluster stays in the chain. C84_place links to f_sync (C77), C84_found to paths (C81). | proved: `Tree.C84_open`, `Tree.C84_place`, `Tree.C84_found`, `Tree.C84_table` In full for devices that do not fail. Names with the unit 0xFFFF are left out (C75). If the table of open objects has an entry for the place of the new file already, then the file is made and FR_INT_ERR is returned: this case is part of the statement. |
| C85 | Life of a file, from opening to closing | Tree/LifeSpec.lean: an open file on a volume in order; what has changed in the object of a file. f_open is C84, operations on the open file C54, f_sync C77; what is new is that the sector with the entry belongs to one directory only and that of this directory only the one entry changes, so the tree after f_sync is the tree before with one object replaced. If f_sync has nothing to do, nothing has changed since (invariant over the operations). | proved: `Tree.C85_life`, `Tree.C85_cycle`, `Tree.C85_reopen` For devices that do not fail, one open file at a time. C85_cycle and C85_reopen put together say that what was written is read back by the same path. |
| C86 | Renaming by path gives the object its new name and place, and nothing else changes | Tree/RenameModel.lean: f_rename on the device. RenameSpec.lean: trees before and after in three steps (one object more, `..` turned, one object less), reasons to refuse, directories within directories. Both paths are C81, dir_register and dir_remove C80. Between the steps two objects refer to the same clusters; LooseLemmas.lean has the invariant for that time, and DotsLemmas.lean finds the entry `..` by its place in the first sector of the cluster. C86_lost and C86_reach_partial are inductions over paths of directories. | partial: `Tree.C86_rename`, `Tree.C86_violated`, `Tree.C86_lost`, `Tree.C86_reach_partial` All but the last sentence is proved in full by C86_rename, for devices that do not fail and directories that have `..` as second entry (as f_mkdir makes them, C83); names with the unit 0xFFFF are left out (C75). The last sentence is false: f_rename moves a directory into itself or into a directory below it, after which it cannot be reached and its clusters are lost (C86_violated, C86_lost). C86_reach_partial: in all other cases all directories can still be reached. |
| C87 | No series of operations by path damages the volume, and files keep their bytes until a call is about them | Tree/HistModel.lean: f_chdir, and series of calls. HistSpec.lean: volume in order, files found by path, calls about a file. Each call is C82 to C86 or C87_chdir; StepLemmas.lean turns what they say about trees into what it means for the other files: paths that do not pass changed objects lead to the same objects (HistLemmas.lean), and chains of others have the same sectors. C87_history is the induction over the calls; UniqueLemmas.lean shows that the tree is determined by the volume, and that a path can be read in one way only, so that it does not matter which tree the induction chooses. | proved: `Tree.C87_chdir`, `Tree.C87_step`, `Tree.C87_history`, `Tree.C87_path`, `Tree.C87_one`, `Tree.C87_written`, `Tree.C87_lasting`, `Tree.C87_formatted` For devices that do not fail, one open file at a time, paths without the unit 0xFFFF (C75); formatting with blocks of up to 16 sectors (C79). Not damaged does not mean nothing is lost: a directory that has been renamed into itself cannot be reached (C86), which the statement allows as a call about this directory. |
| C88 | f_stat, f_opendir and f_findfirst tell about the object where the path leads, and change nothing | Tree/StatModel.lean: f_stat, f_opendir, reading and searching by path. StatSpec.lean: what is told of an object, the directory a path leads to, what is seen of it. Paths are C81, lists C75 and C80, patterns C58; StatLemmas.lean shows that the entry found is the one of the object, also when its long name was used, and that searching is filtering the list (induction over the objects). | partial: `Tree.C88_stat`, `Tree.C88_list`, `Tree.C88_search`, `Tree.C88_violated`, `Tree.C88_name_partial` All but the name told by f_stat and the limits of pattern matching (C58) is proved in full; devices may fail. The name that f_stat tells of an object with a long name is not that of the object but the last segment of the path, so spelling of letters and trailing dots differ (C88_violated). C88_name_partial: it is the name of the object if it has no long name or if the path spells it alike. C88_search: all matches are found if the pattern has no more than four groups of wildcards and fewer than 256 question marks. |
| C89 | f_statfs tells the number of free clusters | Statfs/Model.lean: f_statfs with both scans, and the arithmetic of the command mount. Statfs/Spec.lean: free clusters as a list. Induction over the scans: the offset in the sector and the sector are those of the next entry (Lemmas.lean), reading through the window is C50. C89_formatted uses C79, whose specification of a new volume now says what the first two entries of the FAT are. | partial: `Statfs.C89_statfs`, `Statfs.C89_formatted`, `Statfs.C89_shown`, `Statfs.C89_violated`, `Statfs.C89_blocks_partial` All but the number of clusters (f_blocks) is proved in full. f_blocks counts all sectors of the volume, also those of the FATs and of the root directory, though it should be the number of data blocks (C89_violated); C89_blocks_partial says what it is, and that it is never less than the number of clusters or of free clusters. |
| C90 | The Pico takes a program from where its bytes are | PicoLoad/Model.lean: fpm_load_arch, on f_stat (C88) and f_statfs (C89). Spec.lean: flash memory as bytes, what lies at an address. That the bytes are on the device and not only in the window follows from what C50 says about all states of the device: with nothing waiting to be written, reading leaves all sectors outside the second FAT as they were. Counterexamples on a volume with sectors of 4096 bytes in ExampleProps.lean. | partial: `PicoLoad.C90_outcome`, `PicoLoad.C90_place_partial`, `PicoLoad.C90_violated`, `PicoLoad.C90_kind_violated` The code violates it: fstartblk is set for all files, so programs whose clusters do not lie one after another are taken as if they did (C90_violated), and directories are taken for programs at an undetermined address (C90_kind_violated). C90_outcome says what happens for every path that does not lead to a directory: the address is the number of the first sector times the bytes of a cluster. C90_place_partial: for files with consecutive clusters on volumes with one sector in a cluster, which is what formatting gives for flash memory of up to 16 megabytes, the address is right. Missing: fragmented files, larger clusters, directories, and files on volumes other than flash memory. |
| C91 | The current directory as a path, and the way back | Tree/CwdModel.lean: f_getcwd on the buffer as a list of bytes, with an access outside as an outcome of its own. CwdSpec.lean: the path as a list of names, the string it stands for, when it fits. Induction over the rounds of the loop: what lies in the buffer from the index on is the path below the directory reached (CwdLemmas.lean); parents are found by the second entry (Dots of C86), names by what C88 says of entries. The way back is path resolution (C81, C87) for the text of the names. | proved: `Tree.C91_safe`, `Tree.C91_getcwd`, `Tree.C91_path`, `Tree.C91_back`, `Tree.C91_lost` Safety holds for all states of the device and all buffers of at least one byte. The rest is for volumes whose directories form what C83 and C86 keep (InOrder), which includes cycles made by moving a directory into itself (C91_lost). A path leads back if its names can be listed, which is what PathTo says. |
| C92 | rm removes just what it is told to remove | Tree/RmModel.lean: the command on f_stat, f_unlink, f_opendir, f_readdir and the table of open objects; the answer of the user is a parameter. RmSpec.lean: what has gone (Pruned, Wiped), when nothing prevents it (Removable). RmLemmas.lean: one f_unlink. RmTreeLemmas.lean: where paths lead after objects have gone, and paths of children. RmLoopLemmas.lean: the loop, with an invariant about the entries that have not been read yet, and the recursion. RmDoneLemmas.lean: that each step succeeds, by induction on the depth. | proved: `Tree.C92_recursive`, `Tree.C92_success`, `Tree.C92_command` For devices that do not fail. Names of objects in the directory must be names that can be listed (Listable): an object with a name that cannot be converted is listed as ? and cannot be removed. A path that ends with .. leads to the parent directory, and so it is that one which is emptied, which the statement says too. |
| C93 | Files that are open at once do not disturb each other | FatFile/ManySpec.lean: open files as a list of arrays that share a number of clusters (Shared); a volume with open files (Desk), where all chains are disjoint. ManyLemmas.lean: each call is what C54 says of it for the file, with the chains of the other files among the other chains; that their sectors stay comes from there. What has to be added is that the buffer of a file always shows one of its own sectors or none of the data area: the specifications of reading, writing and seeking now say where the buffer goes. Induction over the history in ManyProps.lean, and the history that shows the stale buffer. | partial: `FatFile.C93_any_order_partial`, `FatFile.C93_written`, `FatFile.C93_violated` The code violates the full statement: f_truncate at a sector boundary leaves a sector of a freed cluster in the buffer, which f_lseek and f_read use as it is if the file gets the cluster again after another file had it (C93_violated). Proved for all histories in which no file is cut at a multiple of the sector size before its end. For devices that do not fail, and distinct files. |
| C94 | Copying a file gives a file with the same bytes | Tree/CpModel.lean: copy_file as it is, on the models of f_stat, f_open, f_read, f_write and f_close, with the table of open objects; the answer of the user is a parameter. CpSpec.lean: outcomes (CopyEnd), and what a copy is (Copied), on top of what C84 says about opening. CpLemmas.lean: the loop, with both files as arrays of bytes as in C93; the source stays clean, the destination has what has been read so far. CpCloseLemmas.lean: the table of open objects, and that the two files cannot be the same, because the table refuses that. CpDoneLemmas.lean: after opening both files the volume is one with two open files (Desk), and after closing them it is in order by what C85 says about f_sync. | proved: `Tree.C94_copy`, `Tree.C94_same` For devices that do not fail. The objects that are open must not have 255 users (Counted), since one more reader would make the counter look like that of a writer. One more outcome is in the statement: if the table has an entry for an object that has gone, an empty file is made and the message is that of FR_INT_ERR. |
| C95 | The flash disk of the Pico is an array of blocks behind the program | Flash/Model.lean: flash_probe, flash_read, flash_write with 32-bit offsets; erasing sets bits, programming clears them. Spec.lean: an array of blocks that serves requests. Props.lean: one request refines the array, then induction over the requests; the counterexample is for every chip and every firmware. | partial: `Flash.C95_violated`, `Flash.C95_program`, `Flash.C95_array_partial`, `Flash.C95_count` The code violates the full statement: offsets wrap at 2^32 bytes, so blocks from 2^20 - 16 on are the last 64 kbytes before the disk, the end of the firmware (C95_program). Proved for requests that end before block 2^20 - 1, among them all that lie on the disk. |
| C96 | f_chmod and f_utime change what they are asked to, of one object | Tree/ChmodModel.lean: the common part of f_chmod and f_utime after follow_path, with the edit of the entry as a parameter. ChmodSpec.lean: which bits resp. bytes of one entry change, when nothing is changed, and what it means that paths lead to the same place. ChmodLemmas.lean: the volume stays a tree if an object is replaced by one with the same name, kind, first cluster and size; induction over the steps of a path. ChmodProps.lean: with C88 and C82 also what f_stat and f_unlink say afterwards. | proved: `Tree.C96_chmod`, `Tree.C96_utime`, `Tree.C96_others`, `Tree.C96_places`, `Tree.C96_told`, `Tree.C96_told_time`, `Tree.C96_protects` C96_others is for devices that may fail. FAT12, FAT16 and FAT32 only, and without mounting the volume. Neither function looks whether the object is open. |
| C97 | Volume labels: what is set is found again, and nothing else changes | Tree/LabelModel.lean: dir_read for labels, f_getlabel, f_setlabel with the conversion of the text. LabelSpec.lean: the labels in the list of entries, which texts are labels, what setting one does to the list. LabelTextLemmas.lean: conversions in both directions. LabelLemmas.lean: an entry that is no object may be replaced by another one, so the volume stays a tree; with the lemmas on dir_sdi, dir_next and dir_alloc of DirDev. LabelProps.lean: get, set, both in sequence. | proved: `Tree.C97_get`, `Tree.C97_set`, `Tree.C97_others`, `Tree.C97_roundtrip` C97_get and C97_others are for devices that may fail. FAT12, FAT16 and FAT32 only, without mounting the volume and without the name of the disk before the label. If a volume has several label entries, only the first one is shown, changed or removed. |
| C98 | The array for the label in vol is large enough | LabelProps.lean: a counterexample of eleven units for the array of 32 bytes; induction over the units for arrays that are long enough. | partial: `Tree.C98_violated`, `Tree.C98_partial` The code violates the full statement: eleven characters of three bytes and the final zero take 34 bytes, the array has 32. Proved: 23 bytes are enough for FAT, and for exFAT more than three times the number of units. |
| C99 | Drive names in paths are recognised exactly, and lead to their drive | Drive/Model.lean: the loops of get_ldnumber over lists of characters; pointers into the path are what is left of it. Spec.lean: which text names which drive, without the loops. Props.lean: induction over path, name and table; with the outcome of f_getcwd from C91; series of calls by induction. | proved: `Drive.C99_prefix`, `Drive.C99_current`, `Drive.C99_safe`, `Drive.C99_reached`, `Drive.C99_cwd`, `Drive.C99_series` For FF_STR_VOLUME_ID 1, as configured. A digit is a number even if a drive has it as its name. |
| C100 | mv moves a file to the place it is told, replacing a file there only with consent | Tree/MvModel.lean: the functions of cmd_rename.c with f_stat and f_rename of the model; an overrun of the buffer is an outcome of its own. MvSpec.lean: where the object goes, and the five ends of moving. MvLemmas.lean: one rename by C86 and C88, the path built from directory and name by C62. MvProps.lean: C100_full is refuted with a volume with two files, made by writing the second one with the model (C87). | partial: `Tree.C100_violated`, `Tree.C100_end`, `Tree.C100_stays_partial`, `Tree.C100_moves_partial` The code violates the full statement: with consent an existing file is not replaced, f_rename fails with FR_EXIST (C100_violated, C100_stays_partial for all cases). Proved besides: all ends that mv of one source can have with their messages (C100_end), and that moving to a free place moves the file and no other. Several sources are modelled (mvAll) but only checked by example. |
| C101 | mv loses nothing | MvProps.lean: a directory below the root directory stays below it unless the new place is in the moved directory (induction over the path, with C86); C101_full is refuted with `mv a a` in the example volume. | partial: `Tree.C101_violated`, `Tree.C101_safe_partial` The code violates the full statement: `mv a a` moves directory a below itself, where it cannot be reached. Proved for all other moves of one source. |
| C102 | The registers of an SD card are read as the standard defines them | Sd/Model.lean: ext_bits and the arithmetic with its 32-bit wrapping. Spec.lean: a register is one number of 128 bits (big endian), its fields are quotients and remainders; capacity by the formulas of the standard. InitLemmas.lean: the bit loop by induction. | proved: `Sd.C102_bits`, `Sd.C102_capacity`, `Sd.C102_other`, `Sd.C102_identity` Capacities of 2^32 blocks (C_SIZE = 0x3FFFFF, which the standard excludes) would overflow to 0 and are left out. |
| C103 | Talking to an SD card byte by byte, the driver makes it a correct array of blocks | Sd/Model.lean: the driver, byte by byte, against any machine that exchanges bytes; loops with timeouts have any number of rounds that the clock allows. Spec.lean: the card of the standard as such a machine (commands with checksum by C69's polynomials, delays, undefined bits, busy signals), and an array of blocks. Lemmas.lean, BlockLemmas.lean: what each exchange does to the card; Props.lean: each request keeps the invariant Up; series by induction. | proved: `Sd.C103_request`, `Sd.C103_requests` Against a card as a machine that takes and gives a byte at a time. Cards responding after more than the 16 bytes or the timeouts of the driver are excluded by Quick; checksum errors on the line are not modelled here (C68, C69 have them). |
| C104 | Every SD card of the standard is initialised | InitLemmas.lean: each step of sd_init_medium and sd_init_nolock with the card, for all three kinds; the loop over ACMD41 by induction over the number of answers 'idle' that the card will give. | proved: `Sd.C104_init`, `Sd.C104_session`  |
| C105 | Requests to an SD card come to an end, whatever the card does | Sd/LossProps.lean: for a card with `mute 17` each round of cmdLoop ends in the same situation, so no fuel suffices (induction); C105_ends_partial by induction over the rounds, with the fact that the inner initialisation always ends. | partial: `Sd.C105_violated`, `Sd.C105_endless`, `Sd.C105_ends_partial` The code violates the full statement: with a card that answers everything but CMD17 a read never returns, as after each successful initialisation the command is repeated (C105_endless). Proved: a command that does not end has met, for each round, a successful initialisation followed by no response, for any machine at the other end. |
| C106 | A card that has been out of its slot is served again | Sd/LossProps.lean: a card without power does not respond, so three attempts fail; init_nolock of C104 applies, and the command then is one to a card that is up, so that C103 applies. Series by induction. | proved: `Sd.C106_request`, `Sd.C106_requests` The card keeps its data and is the same one; requests beyond the end, which are refused without a command, are not in the series. A loss of power during a request is not covered. |
| C107 | printf prints what its format says, uses the format again for further arguments, and never reads or writes outside its arrays | Printf/Model.lean: the conversion loop over the format as three lists (before start, up to fmt, behind), with reads behind the end, overrun of buf, wrong arguments of fpm_printf, and null pointers as outcomes. Spec.lean: formats as lists of text, %% and directives; C's printf for one directive; a relation Prints for the whole command. Lemmas.lean: the scanning loops on the text of a directive; Props.lean: one round per item, a pass over the format by induction over the items, the command by induction over Prints; C107_ends by a measure (arguments, the flag end, characters left); C107_percent, _reuse, _star, _width, _long for the faults. | partial: `Printf.C107_violated`, `Printf.C107_percent`, `Printf.C107_reuse`, `Printf.C107_star`, `Printf.C107_width`, `Printf.C107_long`, `Printf.C107_prints_partial`, `Printf.C107_ends` The code violates the full statement: a format that ends within a directive and a format with %% used again are read beyond their end, text of more than 60 characters before an integer directive overruns buf, a width or precision of 0 is not passed on, and the message about a width above 65535 uses the wrong argument or a null pointer. C107_prints_partial describes output and exit code in all other cases; missing there are formats with %% that are used again, %X, and widths above 65535 or 0. The text of a single directive is that of fpm_printf, which is not modelled here. |
| C108 | Drive 1 is the first slot with a card | Sd/DriveModel.lean: slots (arbitrary wires, driver state, switch), sd_configure as a loop over them, the calls of pico/diskio.c for drive 1. DriveSpec.lean: empty slots and the answers of an array of blocks. DriveProps.lean: without the byte 1 no initialisation succeeds (induction over the loops); a card is found by sd_probe (CMD0) and initialised by C104; each call by C103, C102 and C104; series by induction. | proved: `Sd.C108_absent`, `Sd.C108_open`, `Sd.C108_calls`, `Sd.C108_session` Cards are not exchanged and switches do not change during the series; locks and pins are left out. |
| C109 | After exchanging the SD card, requests go to the same blocks of the new card | Sd/LossProps.lean: swapped generalises C106: the first command fails three times, the new card is initialised (init_nolock), the command is repeated with its old argument, and the block at this address is served (C103); C109_wrong and C109_partial are the cases of different and of equal kinds of addresses. | partial: `Sd.C109_violated`, `Sd.C109_wrong`, `Sd.C109_lost`, `Sd.C109_partial` The code violates the full statement: the address is computed for the old card, and the command is repeated with it after the new card has been initialised. With a card of byte addresses in place of one with block addresses, a request for blocks from 512 j on reads or overwrites those from j on and succeeds. C109_partial: the statement holds if both cards have the same kind of addresses. |
| C110 | gpio changes the pins that are named, and only these | Gpio/Model.lean: get_set, configure, show_all and main on a state of pins, with accesses beyond pin 29 as a distinct outcome, and strtoul as in the C standard. Spec.lean: numerals and arguments as relations between text and meaning, effects as a relation. Props.lean: strtoul on numerals by induction over the digits, loops over pins by induction, lists of arguments by induction. | partial: `Gpio.C110_violated`, `Gpio.C110_word`, `Gpio.C110_sign`, `Gpio.C110_outside`, `Gpio.C110_huge_pin`, `Gpio.C110_huge_limit`, `Gpio.C110_huge_level`, `Gpio.C110_ignored`, `Gpio.C110_all`, `Gpio.C110_gpio_partial` The code violates the last part: the end of the number is not checked, so gpio x=1 sets pin 0; gpio 1=-5 sets pins 1 to 5; pins from 30 on, which the chip does not have, are accessed; gpio out 1=1 ignores the level. C110_gpio_partial covers all well-formed lists of arguments. Options are left out; strtoul is taken as in the C standard. |
| C111 | cp -r copies a directory with all that is in it | Cpr/Model.lean: a tree of files and directories (places to objects, entries of directories at positions, some free), f_stat, f_mkdir, f_open, f_opendir and f_readdir on it with an environment that decides all failures; copy_file, copy_recursive, copy_object and the command, with path strings. Spec.lean: what is seen at a place, a tree in order, what a copy is. Lemmas.lean: path strings, places, entries, trees stay in order; ScanLemmas.lean: loop and recursion by induction (what changes, what is copied), EndLemmas.lean: termination, absence of messages. | partial: `Cpr.C111_violated`, `Cpr.C111_silent`, `Cpr.C111_copy`, `Cpr.C111_plain`, `Cpr.C111_works_partial` The code violates the full statement: each level of the recursion keeps a directory open, and no more than 16 objects can be open at once (C111_violated); and if f_readdir fails the rest of a directory is left out without a message (C111_silent). C111_copy: for everything that may go wrong, cp -r ends, changes nothing outside of the copy, and has copied all if there was no message and directories could be read. C111_works_partial: files up to 14 and directories up to 15 levels down are copied if all works. One source, not ending in a slash (C62 has these), on a tree of files and directories instead of the device. |
| C112 | Copying a directory into itself does no harm | Cpr/Props.lean: the loop over the entries comes to the directory just made, by induction over its rounds, and the recursion does so on each level, by induction over the number of objects that can be opened. | partial: `Cpr.C112_violated`, `Cpr.C112_nested`, `Cpr.C112_outside_partial` The code violates the full statement: a copy of a directory to a new place in itself makes 17 directories in each other, until no more can be opened (C112_nested). Proved besides: nothing outside of the destination changes and the tree stays in order. |
| C113 | An image made by uf2fat holds what the directory holds | Pack/Model.lean: add_directory, add_file and the loop of add_contents on the tree of Cpr/Model.lean; what fts_read delivers is a list of nodes, and names are folded to upper case. Spec.lean: what the file system should hold, said by looking at each place. Props.lean: each node changes what is seen at one place only; induction over the walk. | partial: `Pack.C113_violated`, `Pack.C113_lost`, `Pack.C113_contents_partial`, `Pack.C113_works` The code violates the full statement: files are created with FA_CREATE_ALWAYS, so of two files on the host whose names differ only in upper and lower case the first is overwritten without a message (C113_lost). Proved otherwise: without such names an image made without error holds exactly the files and directories of the walk; and if the file system has room and the walk comes to directories before their contents, no error occurs. |
| C114 | Commands leave no files or directories open | Handles/Model.lean: the commands as programs that call functions answered by an environment, with a log of what is opened and closed. Spec.lean: what remains open, read off the log. Props.lean: rules in the manner of Hoare logic for sequence, choice, loop, opening and closing; each command by these rules, the recursive ones by induction over the steps allowed. | partial: `Handles.C114_violated`, `Handles.C114_vol`, `Handles.C114_interrupted`, `Handles.C114_unclosed`, `Handles.C114_clean_partial`, `Handles.C114_vol_partial`, `Handles.C114_vol_exact` The code violates the full statement in three ways: vol -t returns after an error in writing, rewinding or reading without closing its file (C114_vol); ^C at a question of cp -r leaves the directories open, on Unix (C114_interrupted); no command looks at the result of f_close, which leaves the object open when it fails (C114_unclosed). Proved otherwise, for any answers of the file system and the user: cat, cp, rm, ls and vol close all they open exactly once, also if ^C is typed, except for cp -r. |
| C115 | Power may be lost while a file is removed | Tree/CrashSpec.lean: what a device may show, on the tree of directories of Tree/Spec.lean. CrashLemmas.lean: an invariant (Keep) of the loop of remove_chain over all disks that existed so far. CrashProps.lean: the trace of fUnlink put together from the search (writes back what was seen), dir_remove (C86's lemmas with the trace kept), remove_chain and sync; the violation by evaluation of a small FAT12 volume. | partial: `Tree.C115_violated`, `Tree.C115_unlink_partial`, `Tree.C115_kinds` The code violates the full statement: on FAT12 an entry of the FAT may be in two sectors, which are written one after the other, so that the removed chain runs into another file for a while (C115_violated). C115_unlink_partial: the statement holds for all volumes where no entry crosses a border of sectors, thus for all FAT16 and FAT32 volumes and FATs of one sector (C115_kinds). Assumes that no access fails before the power is lost (Sound). |
| C116 | f_expand gives an empty file one contiguous block of free clusters if there is one, and otherwise changes nothing | Expand/Model.lean: f_expand on the FAT of Fat/Model.lean with its window and disk, both options. Spec.lean: runs of free clusters, what a file is given, what is unchanged; nothing about searching. Lemmas.lean: invariants of the search below and above its starting point, and of the loop that makes the chain. Props.lean: the cases put together; the two violations by evaluation of a small FAT12 volume. | partial: `Expand.C116_violated`, `Expand.C116_missed`, `Expand.C116_lost`, `Expand.C116_refused`, `Expand.C116_expand_partial`, `Expand.C116_uncut_partial`, `Expand.C116_prepare_partial` The code violates the full statement in two ways: a run around the starting point of the search is not found (C116_missed), and a run is taken for found that continues at cluster 2 behind the last cluster, so that chaining it fails with FR_INT_ERR and the clusters at the end of the FAT are lost (C116_lost). C116_expand_partial: for any device, exactly these are the exceptions. C116_uncut_partial: the full statement holds if no free run is cut at the starting point or at the end of the FAT, for example when the search starts at cluster 2. C116_prepare_partial: option 0, with the same exceptions. |
| C117 | Power may be lost while an object is renamed | Tree/MoveCrashSpec.lean: what each directory may show while an object is renamed. MoveCrashLemmas.lean: the trace of dir_register in an area with room, of the change of `..`, and of dir_remove, put together. MoveCrashProps.lean: with both searches in front, as in C86; the violation by evaluation of the example volume. | partial: `Tree.C117_violated`, `Tree.C117_rename_partial` The code violates the full statement: the new entry may be written before the old one is removed, so that two names refer to the same clusters if power is lost in between; removing one of them later frees the clusters of the other (C117_violated). C117_rename_partial: the object, all other objects, chains and data are never lost, if there is room for the new name in its directory. Not covered: the directory gets another cluster for the new name. Assumes that no access fails before the power is lost (Sound). |
| C118 | ls and dir list the files and directories that are named | Ls/Model.lean: arguments, directories and recursion of cmd_dir.c over an environment that answers f_stat and the reading of directories. Spec.lean: which directories are meant and how listings are put together. Lemmas.lean, Props.lean: by induction over arguments and lists; the violations by evaluation of a small tree, and with f_stat of the example volume. | partial: `Ls.C118_violated`, `Ls.C118_safe_violated`, `Ls.C118_ls_partial`, `Ls.C118_shown_partial`, `Ls.C118_defined_partial` The code violates the full statement in two ways. `ls A/B` lists B of the current directory, as the name of the directory is taken from f_stat, which tells the last name only (C118_violated). An argument of more than 255 bytes that is no valid name, for example 85 Chinese characters and an asterisk, is copied to a buffer of 256 bytes (C118_safe_violated). C118_ls_partial: exactly what is scanned and printed, for all file systems. C118_shown_partial: directories are listed if the name their entry has leads there. C118_defined_partial: the behaviour is undefined exactly in the case above, if listings are defined (C33 - C36) and directories are not nested deeper than allowed for. |
| C119 | ls -R lists every directory below exactly once | Ls: induction over the depth of recursion and the entries of directories; the order of paths by comparing them up to the first slash where they differ. | partial: `Ls.C119_violated`, `Ls.C119_walk_partial`, `Ls.C119_open_partial` The code violates the full statement: hidden directories are listed without -a (C119_violated). C119_walk_partial: all else, for all file systems. C119_open_partial: the full statement holds with -a, and if no directory is hidden. |
| C120 | A typed line reaches the command as its words | Shell/Model.lean: one iteration of the main loop on top of the models of fpm_strlcpy and fpm_tokenize. Spec.lean: meaning of a line of characters. Lemmas.lean: splitting commutes with UTF-8 encoding, by induction over the line. Props.lean: composition with C13, C15, C18; the violation by evaluation. | partial: `Shell.C120_violated`, `Shell.C120_line_partial`, `Shell.C120_quoted` The code violates the full statement for lines with 42 or more words, which overrun the argument vector (C120_violated, see C21). C120_line_partial: everything else of the statement for all lines of at most 82 bytes in UTF-8. C120_quoted: what such a line means when it is made of quoted words. |
| C121 | The first word selects the documented command | Shell: the table of commands compared entry by entry with the list printed by help (both finite); strcasecmp against an inductive definition of spellings, for all strings; the search by induction over the table; lookup of programs by C40. | partial: `Shell.C121_violated`, `Shell.C121_choice`, `Shell.C121_internal`, `Shell.C121_exit_partial` Proved for all names handled by fpm_exec (C121_choice, C121_internal). Violated for exit, which the shell compares with strcmp: EXIT is looked up as a program (C121_violated). |
| C122 | A session runs its commands in order and remembers the last line | Shell: induction over the lines of the session with C120 and C121. | proved: `Shell.C122_session` For lines of at most 82 bytes each (longer ones: C120). |
| C123 | echo prints its arguments | Shell/EchoProps.lean: induction over the arguments with the model of fpm_getopt; composition with C12, C120, C121 for the typed line; violations by evaluation. | partial: `Shell.C123_violated`, `Shell.C123_rest_lost`, `Shell.C123_echo_partial`, `Shell.C123_typed_partial` The code violates the statement about `--`: `echo -- x` prints the help text and `echo a -- x` loses x. The rest is proved, for the command alone and from the typed line to the console. |
| C124 | Power may be lost while a directory is made | Tree/MkdirCrashSpec.lean: what a device may show while a directory is made. MkdirCrashLemmas.lean: every write of create_chain, dir_clear and dir_register in order, with DirDev's lemma that the entry itself is the last one to be written and is still in the window when f_mkdir calls sync_fs. Props: composition with C83, C81; the violation by evaluation of a volume where cluster 85 is the next one. | partial: `Tree.C124_violated`, `Tree.C124_mkdir_partial`, `Tree.C124_kinds_partial` The code violates the full statement on FAT12 volumes: an entry of the FAT that crosses the border of two sectors is written in halves, so for a while the new cluster leads to one that is free (C124_violated). C124_mkdir_partial: the statement for all volumes without such entries, when the parent directory has room for the name without another cluster; C124_kinds_partial: among them FAT16, FAT32 and FATs of one sector. Missing: growth of the parent directory. |
| C125 | Nothing is formatted without confirmation | Format/Model.lean: the command on top of the models of get_ldnumber, fpm_getopt and fpm_editline; f_mkfs is a recorded call. Spec.lean: which drive a word means, what the keys make of the reply (abstract editor of C26), what the user is told. Props.lean: composition with C99 and C26; induction over the calls of fpm_getopt for all argument lists; the violation by evaluation. | partial: `Format.C125_violated`, `Format.C125_drive_partial`, `Format.C125_only_partial`, `Format.C125_words` The code violates the full statement: sizeof(reply) is in bytes but the line editor takes it for a number of 16-bit items, so the 32nd character typed at the question is written behind the array (C125_violated). C125_drive_partial: everything else of the statement as long as the line has at most 31 characters; C125_only_partial: for all argument lists; C125_words: how many words are needed. |
| C126 | Power may be lost while a file is opened | Tree/OpenCrashSpec.lean: what a device may show while a file is opened. OpenCrashLemmas.lean: the writes while a file becomes empty, from C53 (chains at all times) and the lemma that remove_chain writes FATs only, after the entry in the window has been written. Props: composition with follow_path, dir_register (as in C124) and the table of open objects (as in C84); the violation by evaluation. | partial: `Tree.C126_violated`, `Tree.C126_open_partial`, `Tree.C126_kinds_partial` The code violates the full statement on FAT12 volumes: an entry of the FAT that crosses the border of two sectors is cleared in halves, so for a while a cluster that is no longer in use leads into another file (C126_violated). C126_open_partial: the statement for all volumes without such entries, for calls that succeed; for a new file when its directory has room for the name without another cluster. C126_kinds_partial: among them FAT16, FAT32 and FATs of one sector. Missing: growth of the directory. |
| C127 | Power lost while files are open harms no other file | FatFile/Spec.lean: `Others`, proved of each operation by C54, also says what is on the device at all times (`Spare`, `After`). Fat/NearLemmas.lean: put_fat, create_chain and remove_chain leave the entries of other clusters at all times, also between the two halves of an entry that crosses a border of sectors. PowerSpec/PowerProps: chains and contents of clusters. | proved: `FatFile.C127_at_any_time`, `FatFile.C127_from_clean`, `FatFile.C127_several` For a device on which no access fails. C127_at_any_time: from any state, also with sectors waiting to be written; C127_from_clean: from states like those after f_open and f_sync; C127_several: several open files in any order, under the condition of C93 (no file cut at a multiple of the sector size before its end). |
| C128 | The directory entry on the device always describes a file | FatSync/PowerLemmas.lean: the writes of f_sync in order (buffer, window, entry, FSINFO). PowerProps.lean: composition with C54 and C127; the violation by evaluation of a file of 700 bytes cut to length 0. | partial: `FatSync.C128_violated`, `FatSync.C128_sync_partial`, `FatSync.C128_life_partial` The code violates the full statement: cutting frees clusters on the device before the entry is written (C128_violated). C128_sync_partial: at any time during f_sync the device has the old entry, or the file with all its bytes; nothing of others is lost. C128_life_partial: the same over any operations and the f_sync after them. Missing: that the old entry still describes a file. |
| C129 | rmdir removes the empty directories it is told, and nothing else | Tree/RmdirModel.lean: remove_directory and the loop over the arguments, on top of f_stat (C88) and f_unlink (C82). RmdirSpec.lean: the ends that one path may come to, and series of paths. Induction over the paths. | proved: `Tree.C129_one`, `Tree.C129_command`, `Tree.C129_files`, `Tree.C129_done` For a device on which no access fails. C129_one: one path; C129_command: all paths up to the first option, and the messages; C129_files: no file is removed; C129_done: a directory that may go does go. |
| C130 | mkdir makes each directory it is told, and changes nothing else | Tree/MkcdModel.lean: create_directory and the loop over the arguments, on top of f_mkdir (C83). MkcdSpec.lean: the ends that one path may come to, and series of paths. Induction over the paths. | proved: `Tree.C130_one`, `Tree.C130_command`, `Tree.C130_keeps` For a device on which no access fails, and names without the unit 0xFFFF (C75). C130_one: one path; C130_command: all paths up to the first option, and the messages; C130_keeps: all objects stay. |
| C131 | cd goes to directories, and shows a path that leads back | Tree/MkcdModel.lean: fpm_cmd_cd on top of f_chdir (C87) and f_getcwd (C91). Props: composition; the text shown is the string up to its first zero byte, and the names have none. | proved: `Tree.C131_goes`, `Tree.C131_shows`, `Tree.C131_safe`, `Tree.C131_back` C131_goes, C131_shows and C131_back for a device on which no access fails; C131_shows and C131_back if the directories on the way have names that can be listed. C131_safe: whatever the device does and whatever the names are. |
| C132 | vol shows true numbers, and its speed test leaves the disk as it was | Speed/Model.lean: the numbers with arithmetic of 32 and 64 bits; test_speed against arbitrary replies of the file system. Props: arithmetic, induction over the blocks written and read; the violation by evaluation. | partial: `Speed.C132_size`, `Speed.C132_rate`, `Speed.C132_clock`, `Speed.C132_space`, `Speed.C132_violated`, `Speed.C132_overwritten`, `Speed.C132_leaves_partial` The code violates the last sentence: when writing, rewinding or reading fails, the file diskspeed.data stays, and stays open (C132_violated); a file of this name of the user is overwritten and removed (C132_overwritten). C132_leaves_partial: the disk is left as it was if there was no such file and the test ends well, or does not begin. The numbers and the space are proved: C132_size, C132_rate, C132_clock, C132_space. |
| C133 | Files of a volume that has been ejected are not accepted any more | Eject/Model.lean: mount_volume, f_mount, f_unmount and validate on the members fs_type and id, Fsid of 16 bits, the table of open objects and MEDIA_NOINIT. Spec: sessions of volumes, which end by ejecting or taking out. Props: invariant over all histories; the violation by induction over the number of mounts. | partial: `Eject.C133_stale_partial`, `Eject.C133_violated`, `Eject.C133_eject`, `Eject.C133_mount`, `Eject.C133_others`, `Eject.C133_blind` The code violates the first sentence after 65536 mounts, when the mount number repeats (C133_violated), and the last one: mount of a mounted volume whose medium has been taken out succeeds without looking (C133_blind). C133_stale_partial: with fewer than 65536 mounts since the volume was mounted, an object is accepted just if its session goes on. C133_eject, C133_mount, C133_others: other volumes and locks. |
| C134 | eject and mount touch just the drive they are told | Eject/CmdModel.lean: the two commands on the model of C133, with get_ldnumber of Drive. CmdSpec: what a name means, without that function. CmdProps: by C99_prefix and cases; the violation by evaluation. | partial: `Eject.C134_eject_partial`, `Eject.C134_violated`, `Eject.C134_nocolon`, `Eject.C134_default`, `Eject.C134_safe`, `Eject.C134_mount_partial` The code violates the first sentence for arguments without a colon: eject x ejects the current drive (C134_violated, and C134_nocolon in general). C134_eject_partial, C134_mount_partial: for arguments with a colon, the drive named is ejected or mounted, and no other; that a successful mount can be used has the exception of C133. C134_default: without an argument. C134_safe: the other cases, and no access outside of strings. The list that mount shows without an argument is C89. |
| C135 | Running a program on Unix leaves nothing open or mapped | UnixLoad/Model.lean: descriptors, mappings and invalid calls of the process; loading, unloading and the order of calls in fpm_execv. Props: by cases over the replies; the violations for all cases in which they occur. | partial: `UnixLoad.C135_run_partial`, `UnixLoad.C135_violated`, `UnixLoad.C135_twice`, `UnixLoad.C135_leaks`, `UnixLoad.C135_unload` The code violates it: when fstat or mmap fails (an empty file cannot be mapped) the descriptor is closed twice, and munmap is called with MAP_FAILED (C135_violated, C135_twice); without space for stack or heap the file stays open and mapped (C135_leaks). C135_run_partial: it holds in all other cases. C135_unload: unloading gives back what was taken, and may be repeated. C40 tells the same story of the calls in fpm_execv; here it is the state of the process. |
