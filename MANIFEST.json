{
 "claims": [
  {
   "property": "C01",
   "status": "partial",
   "theorems": [
    "Fpm.Alloc.C01_violated",
    "Fpm.Alloc.C01_blocks_partial",
    "Fpm.Alloc.C01_calls_return"
   ],
   "note": "Proved for every legal history of every program in the context chain on 32- and 64-bit machines while request sizes stay clear of the size_t wrap-around; for sizes that wrap the claim is false (witness)."
  },
  {
   "property": "C02",
   "status": "proved",
   "theorems": [
    "Fpm.Alloc.C02_zero_fill",
    "Fpm.Alloc.C02_isolation"
   ],
   "note": ""
  },
  {
   "property": "C03",
   "status": "proved",
   "theorems": [
    "Fpm.Alloc.C03_accounting"
   ],
   "note": ""
  },
  {
   "property": "C04",
   "status": "proved",
   "theorems": [
    "Fpm.Alloc.C04_coalesced",
    "Fpm.Alloc.C04_one_block",
    "Fpm.Alloc.C04_free_all",
    "Fpm.Alloc.C04_as_fresh"
   ],
   "note": ""
  },
  {
   "property": "C05",
   "status": "proved",
   "theorems": [
    "Fpm.Alloc.C05_first_fit",
    "Fpm.Alloc.C05_no_waste"
   ],
   "note": ""
  },
  {
   "property": "C06",
   "status": "proved",
   "theorems": [
    "Fpm.Alloc.C06_realloc",
    "Fpm.Alloc.C02_isolation"
   ],
   "note": "Release exactly once follows with C03_accounting on the resulting reachable state."
  },
  {
   "property": "C07",
   "status": "partial",
   "theorems": [
    "Fpm.Alloc.C07_violated",
    "Fpm.Alloc.C07_truncate_partial"
   ],
   "note": "False for sizes near SIZE_MAX (witness on 32 bits: the block is cut to 0 bytes); proved with the exact size for all others."
  },
  {
   "property": "C08",
   "status": "partial",
   "theorems": [
    "Fpm.Alloc.C08_violated",
    "Fpm.Alloc.C08_writes_outside",
    "Fpm.Alloc.C08_refused_partial"
   ],
   "note": "The code violates the property; negation proved for 32- and 64-bit, the rest proved."
  },
  {
   "property": "C09",
   "status": "proved",
   "theorems": [
    "Fpm.Alloc.C09_child_isolated",
    "Fpm.Alloc.C09_pop_restores"
   ],
   "note": ""
  },
  {
   "property": "C10",
   "status": "proved",
   "theorems": [
    "Fpm.Alloc.C10_push"
   ],
   "note": ""
  },
  {
   "property": "C11",
   "status": "proved",
   "theorems": [
    "Fpm.C11_char_roundtrip",
    "Fpm.C11_string_roundtrip"
   ],
   "note": "All 16-bit characters and all strings."
  },
  {
   "property": "C12",
   "status": "proved",
   "theorems": [
    "Fpm.C12_puts_and_lengths"
   ],
   "note": "All NUL-free 16-bit character strings."
  },
  {
   "property": "C13",
   "status": "proved",
   "theorems": [
    "Fpm.C13_strlcpy"
   ],
   "note": "One model for fpm_strlcpy and fpm_strlcpy_unicode (same code on different item types)."
  },
  {
   "property": "C14",
   "status": "proved",
   "theorems": [
    "Fpm.C14_from_utf8",
    "Fpm.C14_to_utf8_exact",
    "Fpm.C14_roundtrip"
   ],
   "note": ""
  },
  {
   "property": "C15",
   "status": "partial",
   "theorems": [
    "Fpm.C15_violated",
    "Fpm.C15_partial",
    "Fpm.C15_shell_line"
   ],
   "note": "The code violates the property (budget counted in characters); negation proved with witness, safe region and the shell's own use proved."
  },
  {
   "property": "C16",
   "status": "partial",
   "theorems": [
    "Fpm.C16_puts_violated",
    "Fpm.C16_puts_partial",
    "Fpm.C16_from_utf8_violated",
    "Fpm.C16_from_utf8_partial"
   ],
   "note": "The code violates the property for truncated multibyte sequences; proved for well-formed text."
  },
  {
   "property": "C17",
   "status": "proved",
   "theorems": [
    "Fpm.Tok.C17_quoting_roundtrip"
   ],
   "note": "All argument lists, each argument in any of three quoting styles; the argument vector is assumed larger than half the line."
  },
  {
   "property": "C18",
   "status": "proved",
   "theorems": [
    "Fpm.Tok.C18_inplace_refines_words"
   ],
   "note": ""
  },
  {
   "property": "C19",
   "status": "proved",
   "theorems": [
    "Fpm.Tok.C19_error_iff_open"
   ],
   "note": ""
  },
  {
   "property": "C20",
   "status": "partial",
   "theorems": [
    "Fpm.Tok.C20_violated",
    "Fpm.Tok.C20_exact_partial",
    "Fpm.Tok.C18_inplace_refines_words"
   ],
   "note": "The code violates the property (extra NUL one byte past the terminator); exact criterion proved, and that one spare byte always suffices."
  },
  {
   "property": "C21",
   "status": "partial",
   "theorems": [
    "Fpm.Tok.C21_args_nonempty_and_bounded",
    "Fpm.Tok.C21_shell_violated",
    "Fpm.Tok.C21_shell_partial"
   ],
   "note": "The count bound holds; the shell's 42-entry vector is too small for lines of 83 or more characters (witness), safe up to 82."
  },
  {
   "property": "C22",
   "status": "partial",
   "theorems": [
    "Fpm.Getopt.C22_violated",
    "Fpm.Getopt.C22_parse_partial"
   ],
   "note": "`--` as first argument is not recognised (negation proved); proved for all other command lines over declared options."
  },
  {
   "property": "C23",
   "status": "proved",
   "theorems": [
    "Fpm.Getopt.C23_cluster",
    "Fpm.Getopt.C22_parse_partial"
   ],
   "note": ""
  },
  {
   "property": "C24",
   "status": "partial",
   "theorems": [
    "Fpm.Getopt.C24_violated",
    "Fpm.Getopt.C24_resolve_partial",
    "Fpm.Getopt.C24_unknown",
    "Fpm.Getopt.C24_ambiguous"
   ],
   "note": "An exact name preceded by two longer names is reported ambiguous (negation proved); everything else proved."
  },
  {
   "property": "C25",
   "status": "partial",
   "theorems": [
    "Fpm.Getopt.C25_safe_violated",
    "Fpm.Getopt.C25_recover_violated",
    "Fpm.Getopt.C25_terminates",
    "Fpm.Getopt.C25_safe_partial",
    "Fpm.Getopt.C25_short_recovers"
   ],
   "note": "Unknown long options leave the parser inside the next argument (negations proved); termination proved for all inputs, safety for all without unknown long options."
  },
  {
   "property": "C26",
   "status": "proved",
   "theorems": [
    "Fpm.Editline.C26_refines",
    "Fpm.Editline.C26_capacity"
   ],
   "note": ""
  },
  {
   "property": "C27",
   "status": "proved",
   "theorems": [
    "Fpm.Editline.C27_display"
   ],
   "note": "Ideal terminal: one unbounded row."
  },
  {
   "property": "C28",
   "status": "partial",
   "theorems": [
    "Fpm.Editline.C28_violated",
    "Fpm.Editline.C28_safe_partial"
   ],
   "note": "The shell passes the size in bytes for a 128-character buffer (negation proved); with the element count the call is safe for all inputs."
  },
  {
   "property": "C29",
   "status": "proved",
   "theorems": [
    "Fpm.Editline.C29_recall"
   ],
   "note": ""
  },
  {
   "property": "C30",
   "status": "partial",
   "theorems": [
    "Fpm.GetKey.C30_violated",
    "Fpm.GetKey.C30_decode_partial",
    "Fpm.GetKey.C30_total"
   ],
   "note": "Numbers in escape sequences are taken modulo 2^32 (negation proved); proved for all input with numbers below 2^32, totality for all input."
  },
  {
   "property": "C31",
   "status": "proved",
   "theorems": [
    "Fpm.Calendar.C31_day_of_week",
    "Fpm.Calendar.C31_consecutive"
   ],
   "note": "All valid dates up to year 1.7e9, where int arithmetic begins to overflow."
  },
  {
   "property": "C32",
   "status": "proved",
   "theorems": [
    "Fpm.Calendar.C32_clock"
   ],
   "note": "Whole domain of 24 hours."
  },
  {
   "property": "C33",
   "status": "proved",
   "theorems": [
    "Fpm.Dir.C33_sorted",
    "Fpm.Dir.C33_single_column"
   ],
   "note": "For every directory contents."
  },
  {
   "property": "C34",
   "status": "partial",
   "theorems": [
    "Fpm.Dir.C34_violated",
    "Fpm.Dir.C34_newest_first_partial"
   ],
   "note": "Stamps are compared as signed ints: files dated 2044 or later are listed as oldest (negation proved); proved for stamps below 2^31."
  },
  {
   "property": "C35",
   "status": "proved",
   "theorems": [
    "Fpm.Dir.C35_columns"
   ],
   "note": "For every list of names and every screen width."
  },
  {
   "property": "C36",
   "status": "proved",
   "theorems": [
    "Fpm.Dir.C36_size",
    "Fpm.Dir.C36_long_listing"
   ],
   "note": "For every 64-bit size."
  },
  {
   "property": "C37",
   "status": "partial",
   "theorems": [
    "Fpm.Cat.C37_violated",
    "Fpm.Cat.C37_cat_partial",
    "Fpm.Cat.C37_crlf_unchanged",
    "Fpm.Cat.C37_total"
   ],
   "note": "Malformed UTF-8 loses text (negation proved); proved for all NUL-free UTF-8 texts, composed with the model of f_gets; termination and memory safety for all files."
  },
  {
   "property": "C38",
   "status": "proved",
   "theorems": [
    "Fpm.PrintfEsc.C38_escape",
    "Fpm.PrintfEsc.Unesc.unique"
   ],
   "note": "All strings; the rules are shown to determine the result."
  },
  {
   "property": "C39",
   "status": "proved",
   "theorems": [
    "Fpm.Loader.C39_binding"
   ],
   "note": "All images that consistently describe a program (64-bit and 32-bit layout), all chains of link maps."
  },
  {
   "property": "C40",
   "status": "partial",
   "theorems": [
    "Fpm.Exec.C40_path",
    "Fpm.Exec.C40_path_tight",
    "Fpm.Exec.C40_drive",
    "Fpm.Exec.C40_violated",
    "Fpm.Exec.C40_released_partial"
   ],
   "note": "Negation proved; exact characterisation of the outcomes after which everything has been released; path buffer proved to suffice, exactly."
  },
  {
   "property": "C41",
   "status": "partial",
   "theorems": [
    "Fpm.DiskIo.C41_violated",
    "Fpm.DiskIo.C41_write_violated",
    "Fpm.DiskIo.C41_flash_violated",
    "Fpm.DiskIo.C41_image_violated",
    "Fpm.DiskIo.C41_unix_read_partial",
    "Fpm.DiskIo.C41_unix_write_partial",
    "Fpm.DiskIo.C41_flash_partial",
    "Fpm.DiskIo.C41_image_partial"
   ],
   "note": "32-bit wrap-around of byte offsets (negations proved); exact behaviour proved for all accesses below 4 GB."
  },
  {
   "property": "C42",
   "status": "proved",
   "theorems": [
    "Fpm.Crc.C42_crc7",
    "Fpm.Crc.C42_update16",
    "Fpm.Crc.C42_crc16",
    "Fpm.Crc.C42_ccitt",
    "Fpm.Crc.C42_crc32",
    "Fpm.Crc.C42_pieces",
    "Fpm.Crc.C42_unique"
   ],
   "note": "Remainders of polynomials over ZMod 2 (Mathlib), all message lengths and, where the code allows, all start registers. Assumes plain char is unsigned (ARM)."
  },
  {
   "property": "C43",
   "status": "proved",
   "theorems": [
    "Fpm.Crc.C43_crc7",
    "Fpm.Crc.C43_update16",
    "Fpm.Crc.C43_ccitt",
    "Fpm.Crc.C43_crc32",
    "Fpm.Crc.C43_byte",
    "Fpm.Crc.C43_crc7_tight",
    "Fpm.Crc.C43_not32"
   ],
   "note": "Every change inside a window as wide as the code; C43_crc7_tight shows the 7-bit window cannot be widened to a byte."
  },
  {
   "property": "C44",
   "status": "partial",
   "theorems": [
    "Fpm.Zmodem.C44_violated",
    "Fpm.Zmodem.C44_encode",
    "Fpm.Zmodem.C44_roundtrip_partial",
    "Fpm.Zmodem.C44_corrupt"
   ],
   "note": "On targets with signed plain char no hex header is accepted (negation proved: its last byte is 0x8a); proved where char is unsigned (ARM). Encoding and detection of any one changed digit proved for all targets."
  },
  {
   "property": "C45",
   "status": "partial",
   "theorems": [
    "Fpm.Zmodem.C45_violated",
    "Fpm.Zmodem.C45_block_partial",
    "Fpm.Zmodem.C45_pico",
    "Fpm.Zmodem.C45_header_partial",
    "Fpm.Zmodem.C45_accept",
    "Fpm.Zmodem.C45_accept_header",
    "Fpm.Zmodem.C45_detect"
   ],
   "note": "Decoding proved for every target where the bytes of the stream arrive (Clean), and without exception on the Pico; violated on x86-64 (bytes >= 0x80). Converse (nothing but subpackets with a good check is accepted) for all inputs and targets."
  },
  {
   "property": "C46",
   "status": "partial",
   "theorems": [
    "Fpm.Zmodem.C46_buffer",
    "Fpm.Zmodem.C46_header",
    "Fpm.Zmodem.C46_space",
    "Fpm.Zmodem.C46_cancel_violated",
    "Fpm.Zmodem.C46_cancel_partial"
   ],
   "note": "Memory safety for all inputs and targets. While a header is awaited six cancel characters are needed, not five (negation proved)."
  },
  {
   "property": "C47",
   "status": "partial",
   "theorems": [
    "Fpm.Zmodem.C47_orderly",
    "Fpm.Zmodem.C47_session",
    "Fpm.Zmodem.C47_file_partial",
    "Fpm.Zmodem.C47_positions_violated",
    "Fpm.Zmodem.C47_closes_violated"
   ],
   "note": "C47_orderly holds for all inputs and all file system behaviours; sessions proved for any number of files. With two files the second one is asked for from a wrong position and the first is never closed (negations proved). Assumes a zero byte behind the header buffer (C48)."
  },
  {
   "property": "C48",
   "status": "partial",
   "theorems": [
    "Fpm.Zmodem.C48_violated",
    "Fpm.Zmodem.C48_not_full",
    "Fpm.Zmodem.C48_send_partial",
    "Fpm.Zmodem.C48_pos_partial",
    "Fpm.Zmodem.C48_flags_partial"
   ],
   "note": "Every hex header sent reads past its 17-byte buffer (proved for all headers); if a zero byte follows, exactly the header is sent."
  },
  {
   "property": "C49",
   "status": "proved",
   "theorems": [
    "Fpm.FatBytes.C49_load",
    "Fpm.FatBytes.C49_store",
    "Fpm.FatBytes.C49_roundtrip"
   ],
   "note": "Byte level, all lengths, all values; bytes outside the field unchanged."
  },
  {
   "property": "C50",
   "status": "proved",
   "theorems": [
    "Fpm.Fat.C50_get",
    "Fpm.Fat.C50_put",
    "Fpm.Fat.C50_range"
   ],
   "note": "All geometries a mount accepts, all device contents and states of the window, all clusters, values and device failures."
  },
  {
   "property": "C51",
   "status": "proved",
   "theorems": [
    "Fpm.Fat.C51_new",
    "Fpm.Fat.C51_stretch",
    "Fpm.Fat.C51_followed"
   ],
   "note": "All geometries, well-formed FATs, states of the window, device failures; the cached number of free clusters is unknown or right (mount takes it from the FSINFO sector unchecked)."
  },
  {
   "property": "C52",
   "status": "proved",
   "theorems": [
    "Fpm.Fat.C52_remove",
    "Fpm.Fat.C52_truncate"
   ],
   "note": "Whole chains and rests of chains; under device failures all other chains stay intact."
  },
  {
   "property": "C53",
   "status": "partial",
   "theorems": [
    "Fpm.Fat.C53_crash_partial",
    "Fpm.Fat.C53_kinds",
    "Fpm.Fat.C53_violated"
   ],
   "note": "All crash points of create_chain and remove_chain where no FAT entry crosses a sector border (all FAT16, FAT32); violated for such entries of FAT12 (negation proved). Directory entries are not part of it."
  },
  {
   "property": "C54",
   "status": "proved",
   "theorems": [
    "Fpm.FatFile.C54_step",
    "Fpm.FatFile.C54_history",
    "Fpm.FatFile.C54_readback",
    "Fpm.FatFile.C54_stuck",
    "Fpm.FatFile.C54_other_files",
    "Fpm.FatFile.C54_written"
   ],
   "note": "Any history of read, write, seek and truncate on one open file, any cluster size, with disk full and size limit exactly stated; on a failing device an operation reports an error and other files keep chain and contents. Bytes between old end and new end after seeking beyond the end are unspecified, as in the code."
  },
  {
   "property": "C55",
   "status": "partial",
   "theorems": [
    "Fpm.FatLock.C55_exclusive_partial",
    "Fpm.FatLock.C55_unique",
    "Fpm.FatLock.C55_removed",
    "Fpm.FatLock.C55_failed",
    "Fpm.FatLock.C55_empty",
    "Fpm.FatLock.C55_opens",
    "Fpm.FatLock.C55_violated",
    "Fpm.FatLock.C55_dir"
   ],
   "note": "All histories in which no object is open more than 255 times at once; with 256 readers a writer is let in (negation proved). Locks of open directories do not prevent their removal (C55_dir)."
  },
  {
   "property": "C56",
   "status": "partial",
   "theorems": [
    "Fpm.Lfn.C56_stored_partial",
    "Fpm.Lfn.C56_read",
    "Fpm.Lfn.C56_compare",
    "Fpm.Lfn.C56_defined",
    "Fpm.Lfn.C56_checksum",
    "Fpm.Lfn.C56_violated"
   ],
   "note": "All names without U+FFFF; violated for U+FFFF (negation proved). Reading and comparing hold for all entries in the specified layout; bounds for arbitrary entries."
  },
  {
   "property": "C57",
   "status": "partial",
   "theorems": [
    "Fpm.TextIo.C57_roundtrip",
    "Fpm.TextIo.C57_violated",
    "Fpm.TextIo.C57_accepts_partial",
    "Fpm.TextIo.C57_in_bounds",
    "Fpm.TextIo.C57_surrogate"
   ],
   "note": "Round trip proved for all scalar values; overlong forms are accepted (negation proved), everything else malformed is rejected."
  },
  {
   "property": "C58",
   "status": "partial",
   "theorems": [
    "Fpm.Glob.C58_match_partial",
    "Fpm.Glob.C58_defined",
    "Fpm.Glob.C58_violated"
   ],
   "note": "Sound for patterns with at most 255 question marks, complete up to four groups of wildcards; always defined on arbitrary bytes; violated for 256 question marks (negation proved)."
  },
  {
   "property": "C59",
   "status": "partial",
   "theorems": [
    "Fpm.Elfexe.C59_amd64",
    "Fpm.Elfexe.C59_amd64_total",
    "Fpm.Elfexe.C59_arm64_partial",
    "Fpm.Elfexe.C59_arm64_total",
    "Fpm.Elfexe.C59_arm64_violated",
    "Fpm.Elfexe.C59_arm32_partial",
    "Fpm.Elfexe.C59_arm32_one_partial",
    "Fpm.Elfexe.C59_violated",
    "Fpm.Elfexe.C59_file",
    "Fpm.Elfexe.C59_again"
   ],
   "note": "Proved for x86-64; for arm64 up to 512 imports, wrong beyond (C59_arm64_violated); for arm32 only the first import gets its slot (negation proved). C59_file and C59_again lift the results to whole files."
  },
  {
   "property": "C60",
   "status": "partial",
   "theorems": [
    "Fpm.Uf2.C60_format_partial",
    "Fpm.Uf2.C60_total",
    "Fpm.Uf2.C60_again",
    "Fpm.Uf2.C60_size",
    "Fpm.Uf2.C60_size_hex",
    "Fpm.Uf2.C60_size_lax",
    "Fpm.Uf2.C60_violated"
   ],
   "note": "All programs whose end is not within 128 kbytes of the end of the 32-bit address space (there the start wraps around, negation proved) and whose file has a last block; file systems as arbitrary lists of sectors."
  },
  {
   "property": "C61",
   "status": "partial",
   "theorems": [
    "Fpm.Copy.C61_violated",
    "Fpm.Copy.C61_copy_partial"
   ],
   "note": "The result of f_close is ignored (negation proved); otherwise proved for all files and all patterns of short reads and writes."
  },
  {
   "property": "C62",
   "status": "partial",
   "theorems": [
    "Fpm.Copy.C62_violated",
    "Fpm.Copy.C62_uninitialised",
    "Fpm.Copy.C62_stale_name",
    "Fpm.Copy.C62_copy_partial",
    "Fpm.Copy.C62_move_partial",
    "Fpm.Copy.Last.exists"
   ],
   "note": "Overrun, uninitialised bytes and stale names (negations proved); proved for sources without trailing slash and names up to 255 bytes, mv also with trailing slashes."
  },
  {
   "property": "C63",
   "status": "partial",
   "theorems": [
    "Fpm.Exec.C63_violated",
    "Fpm.Exec.C63_fits_partial",
    "Fpm.Exec.C63_no_cwd"
   ],
   "note": "Long directory names overrun the buffer (negation proved); exact characterisation of the directories that fit."
  },
  {
   "property": "C64",
   "status": "partial",
   "theorems": [
    "Fpm.TextIo.C64_violated",
    "Fpm.TextIo.C64_lines_partial",
    "Fpm.TextIo.C64_puts",
    "Fpm.TextIo.C64_puts_in_bounds",
    "Fpm.TextIo.C64_gets_in_bounds",
    "Fpm.TextIo.C64_pieces"
   ],
   "note": "f_gets needs three spare bytes (negation proved); round trip proved with them."
  },
  {
   "property": "C65",
   "status": "partial",
   "theorems": [
    "Fpm.Calendar.C65_violated",
    "Fpm.Calendar.C65_date_partial"
   ],
   "note": "31 February is accepted (negation proved); all existing dates are accepted with the right weekday, and nothing beyond day 31."
  },
  {
   "property": "C66",
   "status": "partial",
   "theorems": [
    "Fpm.Calendar.C66_violated",
    "Fpm.Calendar.C66_stamp_partial",
    "Fpm.Calendar.C66_order"
   ],
   "note": "From 2108 on the 7-bit year wraps (negation proved); proved for 1980..2107."
  },
  {
   "property": "C67",
   "status": "partial",
   "theorems": [
    "Fpm.Loader.C67_violated",
    "Fpm.Loader.C67_safe_partial"
   ],
   "note": "The loader checks no offset of the file (negation proved); safe for consistent files."
  },
  {
   "property": "C68",
   "status": "partial",
   "theorems": [
    "Fpm.DiskIo.C68_violated",
    "Fpm.DiskIo.C68_zero",
    "Fpm.DiskIo.C68_write_partial",
    "Fpm.DiskIo.C68_read"
   ],
   "note": "Rejected blocks are reported as written (negation proved); reads proved."
  },
  {
   "property": "C69",
   "status": "partial",
   "theorems": [
    "Fpm.Zmodem.C69_violated",
    "Fpm.Zmodem.C69_name_partial",
    "Fpm.Zmodem.C69_ub"
   ],
   "note": "Names without terminator get the frame end and old buffer contents appended, or the buffer is read past its end (negations proved); names with terminator are used exactly."
  },
  {
   "property": "C70",
   "status": "proved",
   "theorems": [
    "Fpm.Loader.C70_native"
   ],
   "note": "All byte strings long enough for the fields that are checked."
  },
  {
   "property": "C71",
   "status": "partial",
   "theorems": [
    "Fpm.Fat.C71_mirror_partial",
    "Fpm.Fat.C71_violated"
   ],
   "note": "On devices that do not fail, after any reads and writes of entries; a failure of the second write is not reported (negation proved)."
  },
  {
   "property": "C72",
   "status": "proved",
   "theorems": [
    "Fpm.Fat.C72_create",
    "Fpm.Fat.C72_remove"
   ],
   "note": "All FAT contents, including loops and links to free clusters."
  },
  {
   "property": "C73",
   "status": "proved",
   "theorems": [
    "Fpm.Upcase.C73_upcase",
    "Fpm.Upcase.C73_alphabets",
    "Fpm.Upcase.C73_pairs"
   ],
   "note": "All values; the tables are copied from the source."
  },
  {
   "property": "C74",
   "status": "proved",
   "theorems": [
    "Fpm.Names.C74_path",
    "Fpm.Names.C74_text",
    "Fpm.Names.C74_long",
    "Fpm.Names.C74_short",
    "Fpm.Names.C74_same"
   ],
   "note": "Arbitrary bytes for reading; all texts of allowed characters; listing for names with and without long name entries."
  },
  {
   "property": "C75",
   "status": "proved",
   "theorems": [
    "Fpm.FatDir.C75_list",
    "Fpm.FatDir.C75_find",
    "Fpm.FatDir.C75_refind",
    "Fpm.FatDir.C75_dots",
    "Fpm.FatDir.C75_register",
    "Fpm.FatDir.C75_created",
    "Fpm.FatDir.C75_numbered",
    "Fpm.FatDir.C75_remove",
    "Fpm.FatDir.C75_garbage",
    "Fpm.FatDir.C75_orphan"
   ],
   "note": "Needs a table with nothing behind its end mark (C75_garbage shows why), and, for 8.3 names in a table with leftovers, no orphaned long name that fits by its checksum (C75_orphan); names without U+FFFF (C56)."
  },
  {
   "property": "C76",
   "status": "partial",
   "theorems": [
    "Fpm.Uf2.C76_place_partial",
    "Fpm.Uf2.C76_off",
    "Fpm.Uf2.C76_sector",
    "Fpm.Uf2.C76_violated"
   ],
   "note": "Exact condition: they agree unless the last 256-byte block of the program ends at a 64-kbyte boundary, where the firmware looks 64 kbytes too low (negation proved)."
  },
  {
   "property": "C77",
   "status": "partial",
   "theorems": [
    "Fpm.FatSync.C77_sync_partial",
    "Fpm.FatSync.C77_cycle",
    "Fpm.FatSync.C77_reopen",
    "Fpm.FatSync.C77_unique",
    "Fpm.FatSync.C77_violated"
   ],
   "note": "Full for one call on a changed file whatever the device does, and for any history from opening to closing on a device that does not fail. Missing: after a call of f_sync that failed, the next one returns success without storing anything (negation proved)."
  },
  {
   "property": "C78",
   "status": "partial",
   "theorems": [
    "Fpm.Mount.C78_safe",
    "Fpm.Mount.C78_mount_partial",
    "Fpm.Mount.C78_accepts",
    "Fpm.Mount.C78_overlap",
    "Fpm.Mount.C78_info_overlap",
    "Fpm.Mount.C78_violated"
   ],
   "note": "Safety and acceptance in full. Well-formedness of what is mounted holds for FATs below 2^30 sectors and volumes below sector 2^32 with two reserved sectors if free counts are in use; without these it is wrong (negations proved). exFAT is only recognised."
  },
  {
   "property": "C79",
   "status": "partial",
   "theorems": [
    "Fpm.Mkfs.C79_safe",
    "Fpm.Mkfs.C79_made_partial",
    "Fpm.Mkfs.C79_mounts_partial",
    "Fpm.Mkfs.C79_sd",
    "Fpm.Mkfs.C79_flash",
    "Fpm.Mkfs.C79_no_clusters",
    "Fpm.Mkfs.C79_small_buffer",
    "Fpm.Mkfs.C79_unreported",
    "Fpm.Mkfs.C79_violated"
   ],
   "note": "Safety in full. Success means a well-formed empty volume for blocks of up to 16 sectors (the drivers report 1), the number of free clusters stored on devices that do not fail. Beyond that it is wrong (negations proved): larger blocks may leave no clusters, a failure when free counts are written is not reported, and a partition table needs a buffer of 4096 bytes. exFAT is not modelled."
  },
  {
   "property": "C80",
   "status": "partial",
   "theorems": [
    "Fpm.DirDev.C80_find",
    "Fpm.DirDev.C80_list",
    "Fpm.DirDev.C80_register",
    "Fpm.DirDev.C80_created",
    "Fpm.DirDev.C80_remove",
    "Fpm.DirDev.C80_crash_partial",
    "Fpm.DirDev.C80_violated"
   ],
   "note": "All in full but crashes while an object is created: safe if there is room in the directory; if it gets a new cluster, the FAT is written before the cluster is cleared, and a crash between shows old contents of the cluster as objects (negation proved). What a failing device leaves in the directory itself is not stated."
  },
  {
   "property": "C81",
   "status": "proved",
   "theorems": [
    "Fpm.Tree.C81_place",
    "Fpm.Tree.C81_follow",
    "Fpm.Tree.C81_bytes"
   ],
   "note": "In full, for volumes that are trees of directories; nesting is not bounded, and loops of directories are not excluded by the specification."
  },
  {
   "property": "C82",
   "status": "proved",
   "theorems": [
    "Fpm.Tree.C82_unlink",
    "Fpm.Tree.C82_others"
   ],
   "note": "Outcome in full on devices that do not fail; on others all but the object and its directory is shown to be kept, and that success means that the object has gone."
  },
  {
   "property": "C83",
   "status": "proved",
   "theorems": [
    "Fpm.Tree.C83_mkdir",
    "Fpm.Tree.C83_found"
   ],
   "note": "In full for devices that do not fail. Names with the unit 0xFFFF are left out (C75)."
  },
  {
   "property": "C84",
   "status": "proved",
   "theorems": [
    "Fpm.Tree.C84_open",
    "Fpm.Tree.C84_place",
    "Fpm.Tree.C84_found",
    "Fpm.Tree.C84_table"
   ],
   "note": "In full for devices that do not fail. Names with the unit 0xFFFF are left out (C75). If the table of open objects has an entry for the place of the new file already, then the file is made and FR_INT_ERR is returned: this case is part of the statement."
  },
  {
   "property": "C85",
   "status": "proved",
   "theorems": [
    "Fpm.Tree.C85_life",
    "Fpm.Tree.C85_cycle",
    "Fpm.Tree.C85_reopen"
   ],
   "note": "For devices that do not fail, one open file at a time. C85_cycle and C85_reopen put together say that what was written is read back by the same path."
  },
  {
   "property": "C86",
   "status": "partial",
   "theorems": [
    "Fpm.Tree.C86_rename",
    "Fpm.Tree.C86_violated",
    "Fpm.Tree.C86_lost",
    "Fpm.Tree.C86_reach_partial"
   ],
   "note": "All but the last sentence is proved in full by C86_rename, for devices that do not fail and directories that have `..` as second entry (as f_mkdir makes them, C83); names with the unit 0xFFFF are left out (C75). The last sentence is false: f_rename moves a directory into itself or into a directory below it, after which it cannot be reached and its clusters are lost (C86_violated, C86_lost). C86_reach_partial: in all other cases all directories can still be reached."
  },
  {
   "property": "C87",
   "status": "proved",
   "theorems": [
    "Fpm.Tree.C87_chdir",
    "Fpm.Tree.C87_step",
    "Fpm.Tree.C87_history",
    "Fpm.Tree.C87_path",
    "Fpm.Tree.C87_one",
    "Fpm.Tree.C87_written",
    "Fpm.Tree.C87_lasting",
    "Fpm.Tree.C87_formatted"
   ],
   "note": "For devices that do not fail, one open file at a time, paths without the unit 0xFFFF (C75); formatting with blocks of up to 16 sectors (C79). Not damaged does not mean nothing is lost: a directory that has been renamed into itself cannot be reached (C86), which the statement allows as a call about this directory."
  },
  {
   "property": "C88",
   "status": "partial",
   "theorems": [
    "Fpm.Tree.C88_stat",
    "Fpm.Tree.C88_list",
    "Fpm.Tree.C88_search",
    "Fpm.Tree.C88_violated",
    "Fpm.Tree.C88_name_partial"
   ],
   "note": "All but the name told by f_stat and the limits of pattern matching (C58) is proved in full; devices may fail. The name that f_stat tells of an object with a long name is not that of the object but the last segment of the path, so spelling of letters and trailing dots differ (C88_violated). C88_name_partial: it is the name of the object if it has no long name or if the path spells it alike. C88_search: all matches are found if the pattern has no more than four groups of wildcards and fewer than 256 question marks."
  },
  {
   "property": "C89",
   "status": "partial",
   "theorems": [
    "Fpm.Statfs.C89_statfs",
    "Fpm.Statfs.C89_formatted",
    "Fpm.Statfs.C89_shown",
    "Fpm.Statfs.C89_violated",
    "Fpm.Statfs.C89_blocks_partial"
   ],
   "note": "All but the number of clusters (f_blocks) is proved in full. f_blocks counts all sectors of the volume, also those of the FATs and of the root directory, though it should be the number of data blocks (C89_violated); C89_blocks_partial says what it is, and that it is never less than the number of clusters or of free clusters."
  },
  {
   "property": "C90",
   "status": "partial",
   "theorems": [
    "Fpm.PicoLoad.C90_outcome",
    "Fpm.PicoLoad.C90_place_partial",
    "Fpm.PicoLoad.C90_violated",
    "Fpm.PicoLoad.C90_kind_violated"
   ],
   "note": "The code violates it: fstartblk is set for all files, so programs whose clusters do not lie one after another are taken as if they did (C90_violated), and directories are taken for programs at an undetermined address (C90_kind_violated). C90_outcome says what happens for every path that does not lead to a directory: the address is the number of the first sector times the bytes of a cluster. C90_place_partial: for files with consecutive clusters on volumes with one sector in a cluster, which is what formatting gives for flash memory of up to 16 megabytes, the address is right. Missing: fragmented files, larger clusters, directories, and files on volumes other than flash memory."
  },
  {
   "property": "C91",
   "status": "proved",
   "theorems": [
    "Fpm.Tree.C91_safe",
    "Fpm.Tree.C91_getcwd",
    "Fpm.Tree.C91_path",
    "Fpm.Tree.C91_back",
    "Fpm.Tree.C91_lost"
   ],
   "note": "Safety holds for all states of the device and all buffers of at least one byte. The rest is for volumes whose directories form what C83 and C86 keep (InOrder), which includes cycles made by moving a directory into itself (C91_lost). A path leads back if its names can be listed, which is what PathTo says."
  },
  {
   "property": "C92",
   "status": "proved",
   "theorems": [
    "Fpm.Tree.C92_recursive",
    "Fpm.Tree.C92_success",
    "Fpm.Tree.C92_command"
   ],
   "note": "For devices that do not fail. Names of objects in the directory must be names that can be listed (Listable): an object with a name that cannot be converted is listed as ? and cannot be removed. A path that ends with .. leads to the parent directory, and so it is that one which is emptied, which the statement says too."
  },
  {
   "property": "C93",
   "status": "partial",
   "theorems": [
    "Fpm.FatFile.C93_any_order_partial",
    "Fpm.FatFile.C93_written",
    "Fpm.FatFile.C93_violated"
   ],
   "note": "The code violates the full statement: f_truncate at a sector boundary leaves a sector of a freed cluster in the buffer, which f_lseek and f_read use as it is if the file gets the cluster again after another file had it (C93_violated). Proved for all histories in which no file is cut at a multiple of the sector size before its end. For devices that do not fail, and distinct files."
  },
  {
   "property": "C94",
   "status": "proved",
   "theorems": [
    "Fpm.Tree.C94_copy",
    "Fpm.Tree.C94_same"
   ],
   "note": "For devices that do not fail. The objects that are open must not have 255 users (Counted), since one more reader would make the counter look like that of a writer. One more outcome is in the statement: if the table has an entry for an object that has gone, an empty file is made and the message is that of FR_INT_ERR."
  },
  {
   "property": "C95",
   "status": "partial",
   "theorems": [
    "Fpm.Flash.C95_violated",
    "Fpm.Flash.C95_program",
    "Fpm.Flash.C95_array_partial",
    "Fpm.Flash.C95_count"
   ],
   "note": "The code violates the full statement: offsets wrap at 2^32 bytes, so blocks from 2^20 - 16 on are the last 64 kbytes before the disk, the end of the firmware (C95_program). Proved for requests that end before block 2^20 - 1, among them all that lie on the disk."
  },
  {
   "property": "C96",
   "status": "proved",
   "theorems": [
    "Fpm.Tree.C96_chmod",
    "Fpm.Tree.C96_utime",
    "Fpm.Tree.C96_others",
    "Fpm.Tree.C96_places",
    "Fpm.Tree.C96_told",
    "Fpm.Tree.C96_told_time",
    "Fpm.Tree.C96_protects"
   ],
   "note": "C96_others is for devices that may fail. FAT12, FAT16 and FAT32 only, and without mounting the volume. Neither function looks whether the object is open."
  },
  {
   "property": "C97",
   "status": "proved",
   "theorems": [
    "Fpm.Tree.C97_get",
    "Fpm.Tree.C97_set",
    "Fpm.Tree.C97_others",
    "Fpm.Tree.C97_roundtrip"
   ],
   "note": "C97_get and C97_others are for devices that may fail. FAT12, FAT16 and FAT32 only, without mounting the volume and without the name of the disk before the label. If a volume has several label entries, only the first one is shown, changed or removed."
  },
  {
   "property": "C98",
   "status": "partial",
   "theorems": [
    "Fpm.Tree.C98_violated",
    "Fpm.Tree.C98_partial"
   ],
   "note": "The code violates the full statement: eleven characters of three bytes and the final zero take 34 bytes, the array has 32. Proved: 23 bytes are enough for FAT, and for exFAT more than three times the number of units."
  },
  {
   "property": "C99",
   "status": "proved",
   "theorems": [
    "Fpm.Drive.C99_prefix",
    "Fpm.Drive.C99_current",
    "Fpm.Drive.C99_safe",
    "Fpm.Drive.C99_reached",
    "Fpm.Drive.C99_cwd",
    "Fpm.Drive.C99_series"
   ],
   "note": "For FF_STR_VOLUME_ID 1, as configured. A digit is a number even if a drive has it as its name."
  },
  {
   "property": "C100",
   "status": "partial",
   "theorems": [
    "Fpm.Tree.C100_violated",
    "Fpm.Tree.C100_end",
    "Fpm.Tree.C100_stays_partial",
    "Fpm.Tree.C100_moves_partial"
   ],
   "note": "The code violates the full statement: with consent an existing file is not replaced, f_rename fails with FR_EXIST (C100_violated, C100_stays_partial for all cases). Proved besides: all ends that mv of one source can have with their messages (C100_end), and that moving to a free place moves the file and no other. Several sources are modelled (mvAll) but only checked by example."
  },
  {
   "property": "C101",
   "status": "partial",
   "theorems": [
    "Fpm.Tree.C101_violated",
    "Fpm.Tree.C101_safe_partial"
   ],
   "note": "The code violates the full statement: `mv a a` moves directory a below itself, where it cannot be reached. Proved for all other moves of one source."
  },
  {
   "property": "C102",
   "status": "proved",
   "theorems": [
    "Fpm.Sd.C102_bits",
    "Fpm.Sd.C102_capacity",
    "Fpm.Sd.C102_other",
    "Fpm.Sd.C102_identity"
   ],
   "note": "Capacities of 2^32 blocks (C_SIZE = 0x3FFFFF, which the standard excludes) would overflow to 0 and are left out."
  },
  {
   "property": "C103",
   "status": "proved",
   "theorems": [
    "Fpm.Sd.C103_request",
    "Fpm.Sd.C103_requests"
   ],
   "note": "Against a card as a machine that takes and gives a byte at a time. Cards responding after more than the 16 bytes or the timeouts of the driver are excluded by Quick; checksum errors on the line are not modelled here (C68, C69 have them)."
  },
  {
   "property": "C104",
   "status": "proved",
   "theorems": [
    "Fpm.Sd.C104_init",
    "Fpm.Sd.C104_session"
   ],
   "note": ""
  },
  {
   "property": "C105",
   "status": "partial",
   "theorems": [
    "Fpm.Sd.C105_violated",
    "Fpm.Sd.C105_endless",
    "Fpm.Sd.C105_ends_partial"
   ],
   "note": "The code violates the full statement: with a card that answers everything but CMD17 a read never returns, as after each successful initialisation the command is repeated (C105_endless). Proved: a command that does not end has met, for each round, a successful initialisation followed by no response, for any machine at the other end."
  },
  {
   "property": "C106",
   "status": "proved",
   "theorems": [
    "Fpm.Sd.C106_request",
    "Fpm.Sd.C106_requests"
   ],
   "note": "The card keeps its data and is the same one; requests beyond the end, which are refused without a command, are not in the series. A loss of power during a request is not covered."
  },
  {
   "property": "C107",
   "status": "partial",
   "theorems": [
    "Fpm.Printf.C107_violated",
    "Fpm.Printf.C107_percent",
    "Fpm.Printf.C107_reuse",
    "Fpm.Printf.C107_star",
    "Fpm.Printf.C107_width",
    "Fpm.Printf.C107_long",
    "Fpm.Printf.C107_prints_partial",
    "Fpm.Printf.C107_ends"
   ],
   "note": "The code violates the full statement: a format that ends within a directive and a format with %% used again are read beyond their end, text of more than 60 characters before an integer directive overruns buf, a width or precision of 0 is not passed on, and the message about a width above 65535 uses the wrong argument or a null pointer. C107_prints_partial describes output and exit code in all other cases; missing there are formats with %% that are used again, %X, and widths above 65535 or 0. The text of a single directive is that of fpm_printf, which is not modelled here."
  },
  {
   "property": "C108",
   "status": "proved",
   "theorems": [
    "Fpm.Sd.C108_absent",
    "Fpm.Sd.C108_open",
    "Fpm.Sd.C108_calls",
    "Fpm.Sd.C108_session"
   ],
   "note": "Cards are not exchanged and switches do not change during the series; locks and pins are left out."
  },
  {
   "property": "C109",
   "status": "partial",
   "theorems": [
    "Fpm.Sd.C109_violated",
    "Fpm.Sd.C109_wrong",
    "Fpm.Sd.C109_lost",
    "Fpm.Sd.C109_partial"
   ],
   "note": "The code violates the full statement: the address is computed for the old card, and the command is repeated with it after the new card has been initialised. With a card of byte addresses in place of one with block addresses, a request for blocks from 512 j on reads or overwrites those from j on and succeeds. C109_partial: the statement holds if both cards have the same kind of addresses."
  },
  {
   "property": "C110",
   "status": "partial",
   "theorems": [
    "Fpm.Gpio.C110_violated",
    "Fpm.Gpio.C110_word",
    "Fpm.Gpio.C110_sign",
    "Fpm.Gpio.C110_outside",
    "Fpm.Gpio.C110_huge_pin",
    "Fpm.Gpio.C110_huge_limit",
    "Fpm.Gpio.C110_huge_level",
    "Fpm.Gpio.C110_ignored",
    "Fpm.Gpio.C110_all",
    "Fpm.Gpio.C110_gpio_partial"
   ],
   "note": "The code violates the last part: the end of the number is not checked, so gpio x=1 sets pin 0; gpio 1=-5 sets pins 1 to 5; pins from 30 on, which the chip does not have, are accessed; gpio out 1=1 ignores the level. C110_gpio_partial covers all well-formed lists of arguments. Options are left out; strtoul is taken as in the C standard."
  },
  {
   "property": "C111",
   "status": "partial",
   "theorems": [
    "Fpm.Cpr.C111_violated",
    "Fpm.Cpr.C111_silent",
    "Fpm.Cpr.C111_copy",
    "Fpm.Cpr.C111_plain",
    "Fpm.Cpr.C111_works_partial"
   ],
   "note": "The code violates the full statement: each level of the recursion keeps a directory open, and no more than 16 objects can be open at once (C111_violated); and if f_readdir fails the rest of a directory is left out without a message (C111_silent). C111_copy: for everything that may go wrong, cp -r ends, changes nothing outside of the copy, and has copied all if there was no message and directories could be read. C111_works_partial: files up to 14 and directories up to 15 levels down are copied if all works. One source, not ending in a slash (C62 has these), on a tree of files and directories instead of the device."
  },
  {
   "property": "C112",
   "status": "partial",
   "theorems": [
    "Fpm.Cpr.C112_violated",
    "Fpm.Cpr.C112_nested",
    "Fpm.Cpr.C112_outside_partial"
   ],
   "note": "The code violates the full statement: a copy of a directory to a new place in itself makes 17 directories in each other, until no more can be opened (C112_nested). Proved besides: nothing outside of the destination changes and the tree stays in order."
  },
  {
   "property": "C113",
   "status": "partial",
   "theorems": [
    "Fpm.Pack.C113_violated",
    "Fpm.Pack.C113_lost",
    "Fpm.Pack.C113_contents_partial",
    "Fpm.Pack.C113_works"
   ],
   "note": "The code violates the full statement: files are created with FA_CREATE_ALWAYS, so of two files on the host whose names differ only in upper and lower case the first is overwritten without a message (C113_lost). Proved otherwise: without such names an image made without error holds exactly the files and directories of the walk; and if the file system has room and the walk comes to directories before their contents, no error occurs."
  },
  {
   "property": "C114",
   "status": "partial",
   "theorems": [
    "Fpm.Handles.C114_violated",
    "Fpm.Handles.C114_vol",
    "Fpm.Handles.C114_interrupted",
    "Fpm.Handles.C114_unclosed",
    "Fpm.Handles.C114_clean_partial",
    "Fpm.Handles.C114_vol_partial",
    "Fpm.Handles.C114_vol_exact"
   ],
   "note": "The code violates the full statement in three ways: vol -t returns after an error in writing, rewinding or reading without closing its file (C114_vol); ^C at a question of cp -r leaves the directories open, on Unix (C114_interrupted); no command looks at the result of f_close, which leaves the object open when it fails (C114_unclosed). Proved otherwise, for any answers of the file system and the user: cat, cp, rm, ls and vol close all they open exactly once, also if ^C is typed, except for cp -r."
  },
  {
   "property": "C115",
   "status": "partial",
   "theorems": [
    "Fpm.Tree.C115_violated",
    "Fpm.Tree.C115_unlink_partial",
    "Fpm.Tree.C115_kinds"
   ],
   "note": "The code violates the full statement: on FAT12 an entry of the FAT may be in two sectors, which are written one after the other, so that the removed chain runs into another file for a while (C115_violated). C115_unlink_partial: the statement holds for all volumes where no entry crosses a border of sectors, thus for all FAT16 and FAT32 volumes and FATs of one sector (C115_kinds). Assumes that no access fails before the power is lost (Sound)."
  },
  {
   "property": "C116",
   "status": "partial",
   "theorems": [
    "Fpm.Expand.C116_violated",
    "Fpm.Expand.C116_missed",
    "Fpm.Expand.C116_lost",
    "Fpm.Expand.C116_refused",
    "Fpm.Expand.C116_expand_partial",
    "Fpm.Expand.C116_uncut_partial",
    "Fpm.Expand.C116_prepare_partial"
   ],
   "note": "The code violates the full statement in two ways: a run around the starting point of the search is not found (C116_missed), and a run is taken for found that continues at cluster 2 behind the last cluster, so that chaining it fails with FR_INT_ERR and the clusters at the end of the FAT are lost (C116_lost). C116_expand_partial: for any device, exactly these are the exceptions. C116_uncut_partial: the full statement holds if no free run is cut at the starting point or at the end of the FAT, for example when the search starts at cluster 2. C116_prepare_partial: option 0, with the same exceptions."
  },
  {
   "property": "C117",
   "status": "partial",
   "theorems": [
    "Fpm.Tree.C117_violated",
    "Fpm.Tree.C117_rename_partial"
   ],
   "note": "The code violates the full statement: the new entry may be written before the old one is removed, so that two names refer to the same clusters if power is lost in between; removing one of them later frees the clusters of the other (C117_violated). C117_rename_partial: the object, all other objects, chains and data are never lost, if there is room for the new name in its directory. Not covered: the directory gets another cluster for the new name. Assumes that no access fails before the power is lost (Sound)."
  },
  {
   "property": "C118",
   "status": "partial",
   "theorems": [
    "Fpm.Ls.C118_violated",
    "Fpm.Ls.C118_safe_violated",
    "Fpm.Ls.C118_ls_partial",
    "Fpm.Ls.C118_shown_partial",
    "Fpm.Ls.C118_defined_partial"
   ],
   "note": "The code violates the full statement in two ways. `ls A/B` lists B of the current directory, as the name of the directory is taken from f_stat, which tells the last name only (C118_violated). An argument of more than 255 bytes that is no valid name, for example 85 Chinese characters and an asterisk, is copied to a buffer of 256 bytes (C118_safe_violated). C118_ls_partial: exactly what is scanned and printed, for all file systems. C118_shown_partial: directories are listed if the name their entry has leads there. C118_defined_partial: the behaviour is undefined exactly in the case above, if listings are defined (C33 - C36) and directories are not nested deeper than allowed for."
  },
  {
   "property": "C119",
   "status": "partial",
   "theorems": [
    "Fpm.Ls.C119_violated",
    "Fpm.Ls.C119_walk_partial",
    "Fpm.Ls.C119_open_partial"
   ],
   "note": "The code violates the full statement: hidden directories are listed without -a (C119_violated). C119_walk_partial: all else, for all file systems. C119_open_partial: the full statement holds with -a, and if no directory is hidden."
  },
  {
   "property": "C120",
   "status": "partial",
   "theorems": [
    "Fpm.Shell.C120_violated",
    "Fpm.Shell.C120_line_partial",
    "Fpm.Shell.C120_quoted"
   ],
   "note": "The code violates the full statement for lines with 42 or more words, which overrun the argument vector (C120_violated, see C21). C120_line_partial: everything else of the statement for all lines of at most 82 bytes in UTF-8. C120_quoted: what such a line means when it is made of quoted words."
  },
  {
   "property": "C121",
   "status": "partial",
   "theorems": [
    "Fpm.Shell.C121_violated",
    "Fpm.Shell.C121_choice",
    "Fpm.Shell.C121_internal",
    "Fpm.Shell.C121_exit_partial"
   ],
   "note": "Proved for all names handled by fpm_exec (C121_choice, C121_internal). Violated for exit, which the shell compares with strcmp: EXIT is looked up as a program (C121_violated)."
  },
  {
   "property": "C122",
   "status": "proved",
   "theorems": [
    "Fpm.Shell.C122_session"
   ],
   "note": "For lines of at most 82 bytes each (longer ones: C120)."
  },
  {
   "property": "C123",
   "status": "partial",
   "theorems": [
    "Fpm.Shell.C123_violated",
    "Fpm.Shell.C123_rest_lost",
    "Fpm.Shell.C123_echo_partial",
    "Fpm.Shell.C123_typed_partial"
   ],
   "note": "The code violates the statement about `--`: `echo -- x` prints the help text and `echo a -- x` loses x. The rest is proved, for the command alone and from the typed line to the console."
  },
  {
   "property": "C124",
   "status": "partial",
   "theorems": [
    "Fpm.Tree.C124_violated",
    "Fpm.Tree.C124_mkdir_partial",
    "Fpm.Tree.C124_kinds_partial"
   ],
   "note": "The code violates the full statement on FAT12 volumes: an entry of the FAT that crosses the border of two sectors is written in halves, so for a while the new cluster leads to one that is free (C124_violated). C124_mkdir_partial: the statement for all volumes without such entries, when the parent directory has room for the name without another cluster; C124_kinds_partial: among them FAT16, FAT32 and FATs of one sector. Missing: growth of the parent directory."
  },
  {
   "property": "C125",
   "status": "partial",
   "theorems": [
    "Fpm.Format.C125_violated",
    "Fpm.Format.C125_drive_partial",
    "Fpm.Format.C125_only_partial",
    "Fpm.Format.C125_words"
   ],
   "note": "The code violates the full statement: sizeof(reply) is in bytes but the line editor takes it for a number of 16-bit items, so the 32nd character typed at the question is written behind the array (C125_violated). C125_drive_partial: everything else of the statement as long as the line has at most 31 characters; C125_only_partial: for all argument lists; C125_words: how many words are needed."
  },
  {
   "property": "C126",
   "status": "partial",
   "theorems": [
    "Fpm.Tree.C126_violated",
    "Fpm.Tree.C126_open_partial",
    "Fpm.Tree.C126_kinds_partial"
   ],
   "note": "The code violates the full statement on FAT12 volumes: an entry of the FAT that crosses the border of two sectors is cleared in halves, so for a while a cluster that is no longer in use leads into another file (C126_violated). C126_open_partial: the statement for all volumes without such entries, for calls that succeed; for a new file when its directory has room for the name without another cluster. C126_kinds_partial: among them FAT16, FAT32 and FATs of one sector. Missing: growth of the directory."
  },
  {
   "property": "C127",
   "status": "proved",
   "theorems": [
    "Fpm.FatFile.C127_at_any_time",
    "Fpm.FatFile.C127_from_clean",
    "Fpm.FatFile.C127_several"
   ],
   "note": "For a device on which no access fails. C127_at_any_time: from any state, also with sectors waiting to be written; C127_from_clean: from states like those after f_open and f_sync; C127_several: several open files in any order, under the condition of C93 (no file cut at a multiple of the sector size before its end)."
  },
  {
   "property": "C128",
   "status": "partial",
   "theorems": [
    "Fpm.FatSync.C128_violated",
    "Fpm.FatSync.C128_sync_partial",
    "Fpm.FatSync.C128_life_partial"
   ],
   "note": "The code violates the full statement: cutting frees clusters on the device before the entry is written (C128_violated). C128_sync_partial: at any time during f_sync the device has the old entry, or the file with all its bytes; nothing of others is lost. C128_life_partial: the same over any operations and the f_sync after them. Missing: that the old entry still describes a file."
  },
  {
   "property": "C129",
   "status": "proved",
   "theorems": [
    "Fpm.Tree.C129_one",
    "Fpm.Tree.C129_command",
    "Fpm.Tree.C129_files",
    "Fpm.Tree.C129_done"
   ],
   "note": "For a device on which no access fails. C129_one: one path; C129_command: all paths up to the first option, and the messages; C129_files: no file is removed; C129_done: a directory that may go does go."
  },
  {
   "property": "C130",
   "status": "proved",
   "theorems": [
    "Fpm.Tree.C130_one",
    "Fpm.Tree.C130_command",
    "Fpm.Tree.C130_keeps"
   ],
   "note": "For a device on which no access fails, and names without the unit 0xFFFF (C75). C130_one: one path; C130_command: all paths up to the first option, and the messages; C130_keeps: all objects stay."
  },
  {
   "property": "C131",
   "status": "proved",
   "theorems": [
    "Fpm.Tree.C131_goes",
    "Fpm.Tree.C131_shows",
    "Fpm.Tree.C131_safe",
    "Fpm.Tree.C131_back"
   ],
   "note": "C131_goes, C131_shows and C131_back for a device on which no access fails; C131_shows and C131_back if the directories on the way have names that can be listed. C131_safe: whatever the device does and whatever the names are."
  },
  {
   "property": "C132",
   "status": "partial",
   "theorems": [
    "Fpm.Speed.C132_size",
    "Fpm.Speed.C132_rate",
    "Fpm.Speed.C132_clock",
    "Fpm.Speed.C132_space",
    "Fpm.Speed.C132_violated",
    "Fpm.Speed.C132_overwritten",
    "Fpm.Speed.C132_leaves_partial"
   ],
   "note": "The code violates the last sentence: when writing, rewinding or reading fails, the file diskspeed.data stays, and stays open (C132_violated); a file of this name of the user is overwritten and removed (C132_overwritten). C132_leaves_partial: the disk is left as it was if there was no such file and the test ends well, or does not begin. The numbers and the space are proved: C132_size, C132_rate, C132_clock, C132_space."
  },
  {
   "property": "C133",
   "status": "partial",
   "theorems": [
    "Fpm.Eject.C133_stale_partial",
    "Fpm.Eject.C133_violated",
    "Fpm.Eject.C133_eject",
    "Fpm.Eject.C133_mount",
    "Fpm.Eject.C133_others",
    "Fpm.Eject.C133_blind"
   ],
   "note": "The code violates the first sentence after 65536 mounts, when the mount number repeats (C133_violated), and the last one: mount of a mounted volume whose medium has been taken out succeeds without looking (C133_blind). C133_stale_partial: with fewer than 65536 mounts since the volume was mounted, an object is accepted just if its session goes on. C133_eject, C133_mount, C133_others: other volumes and locks."
  },
  {
   "property": "C134",
   "status": "partial",
   "theorems": [
    "Fpm.Eject.C134_eject_partial",
    "Fpm.Eject.C134_violated",
    "Fpm.Eject.C134_nocolon",
    "Fpm.Eject.C134_default",
    "Fpm.Eject.C134_safe",
    "Fpm.Eject.C134_mount_partial"
   ],
   "note": "The code violates the first sentence for arguments without a colon: eject x ejects the current drive (C134_violated, and C134_nocolon in general). C134_eject_partial, C134_mount_partial: for arguments with a colon, the drive named is ejected or mounted, and no other; that a successful mount can be used has the exception of C133. C134_default: without an argument. C134_safe: the other cases, and no access outside of strings. The list that mount shows without an argument is C89."
  },
  {
   "property": "C135",
   "status": "partial",
   "theorems": [
    "Fpm.UnixLoad.C135_run_partial",
    "Fpm.UnixLoad.C135_violated",
    "Fpm.UnixLoad.C135_twice",
    "Fpm.UnixLoad.C135_leaks",
    "Fpm.UnixLoad.C135_unload"
   ],
   "note": "The code violates it: when fstat or mmap fails (an empty file cannot be mapped) the descriptor is closed twice, and munmap is called with MAP_FAILED (C135_violated, C135_twice); without space for stack or heap the file stays open and mapped (C135_leaks). C135_run_partial: it holds in all other cases. C135_unload: unloading gives back what was taken, and may be repeated. C40 tells the same story of the calls in fpm_execv; here it is the state of the process."
  }
 ]
}