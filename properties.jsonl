{"id": "C01", "title": "Live heap blocks are in bounds, aligned, large enough and pairwise disjoint", "statement": "After any history of fpm_alloc/fpm_alloc_dirty/fpm_realloc/fpm_free/fpm_truncate calls and client stores inside live blocks, every live block returned by the allocator lies inside the heap region, is pointer-aligned, is at least as large as requested (fpm_sizeof reports at least that), and overlaps no other live block and no allocator bookkeeping.", "quantifier": "all heap geometries, all finite histories of legal calls with arbitrary sizes, all client stores inside live blocks", "why_tests_cant": "A test runs a handful of allocation patterns; the free-list splitting/merging cases depend on unbounded histories and addresses.", "anchors": ["kernel/fpm_alloc.c: fpm_alloc, fpm_alloc_dirty, fpm_free, fpm_realloc, fpm_truncate, fpm_sizeof", "include/fpm/api.h"]}
{"id": "C02", "title": "Heap contents are isolated and fpm_alloc zero-fills", "statement": "fpm_alloc returns a block whose requested bytes are all zero, and no allocator operation on one block ever changes a byte of any other live block.", "quantifier": "all histories and block contents; request sizes clear of the wrap-around that is the subject of C08", "why_tests_cant": "Corruption shows only for particular layouts of neighbours; tests check a few layouts.", "anchors": ["kernel/fpm_alloc.c: fpm_alloc, make_free_block, fpm_truncate"]}
{"id": "C03", "title": "Free-space accounting is exact", "statement": "fpm_heap_available() always equals the total size of the free blocks, which equals the heap size minus the sizes (headers included) of the live blocks: no byte is lost or counted twice.", "quantifier": "all reachable heap states", "why_tests_cant": "Drift of an accounting counter needs long histories to be seen.", "anchors": ["kernel/fpm_alloc.c: fpm_heap_available, fpm_alloc_dirty, make_free_block, fpm_heap_setup"]}
{"id": "C04", "title": "Freeing coalesces completely", "statement": "After every operation no two free blocks are adjacent; in particular after freeing every live block, in any order, the heap is again one free block spanning the whole region and any request that succeeded on the fresh heap succeeds again.", "quantifier": "all histories, all orders of freeing", "why_tests_cant": "The number of free orders is factorial; tests try one or two.", "anchors": ["kernel/fpm_alloc.c: make_free_block, fpm_free"]}
{"id": "C05", "title": "Allocation fails only when no free block fits, and then changes nothing", "statement": "fpm_alloc returns NULL exactly when no single free block can hold the rounded request; on success it uses the lowest-addressed block that fits; on failure the heap is unchanged.", "quantifier": "all heap states; request sizes clear of the wrap-around that is the subject of C08", "why_tests_cant": "Needs all fragmentation states.", "anchors": ["kernel/fpm_alloc.c: fpm_alloc_dirty"]}
{"id": "C06", "title": "fpm_realloc preserves contents", "statement": "fpm_realloc of a live block to n bytes returns either the same block (when it already holds n bytes) or a fresh block whose first old-size bytes equal the old contents and whose remaining requested bytes are zero; the old block is released exactly once, also when the growth fails (then NULL is returned); other live blocks are untouched.", "quantifier": "all heap states, live blocks and contents; sizes clear of the wrap-around that is the subject of C08", "why_tests_cant": "Contents and layout are unbounded.", "anchors": ["kernel/fpm_alloc.c: fpm_realloc"]}
{"id": "C07", "title": "fpm_truncate never moves or damages a block", "statement": "fpm_truncate(p,n) keeps p and the first n bytes in place, never grows the block, gives any tail it removes back to the free space, and keeps the block large enough for n bytes.", "quantifier": "all heap states, live blocks and n", "why_tests_cant": "Boundary sizes times layouts are unbounded.", "anchors": ["kernel/fpm_alloc.c: fpm_truncate"]}
{"id": "C08", "title": "Absurdly large requests are refused", "statement": "A request larger than the whole heap returns NULL for every value of size_t.", "quantifier": "every size_t request", "why_tests_cant": "Wrap-around happens only for the last few values of a 32/64-bit domain (and for 64-bit sizes with low 32 bits small).", "anchors": ["kernel/fpm_alloc.c: size_align, fpm_alloc, fpm_alloc_dirty"]}
{"id": "C09", "title": "A nested program cannot disturb its parent's heap", "statement": "While a child context is pushed, any history of heap calls and stores by the child leaves every live block of the parent and the parent's free-list structure unchanged, and after fpm_context_pop the parent's allocator is in exactly the state it had before fpm_context_push.", "quantifier": "all parent heap states, all child histories (child may itself nest) with sizes clear of the wrap-around of C08", "why_tests_cant": "Unbounded nested histories.", "anchors": ["kernel/fpm_alloc.c: fpm_context_push, fpm_context_pop, fpm_heap_setup", "kernel/fpm_exec.c: fpm_exec"]}
{"id": "C10", "title": "Context push takes the largest free block or refuses", "statement": "fpm_context_push gives the child a heap carved from the largest free block of the parent; it refuses exactly when that block is smaller than the documented minimum, and then leaves everything unchanged.", "quantifier": "all parent heap states", "why_tests_cant": "Depends on all free-list shapes.", "anchors": ["kernel/fpm_alloc.c: fpm_context_push"]}
{"id": "C11", "title": "Console characters survive UTF-8 transport", "statement": "Reading back with fpm_getwch the bytes written by fpm_putwch yields the same character and consumes exactly those bytes, for every non-NUL 16-bit character, also in any sequence of characters.", "quantifier": "all 65536 characters, all sequences", "why_tests_cant": "Sequences are unbounded (desynchronisation).", "anchors": ["kernel/fpm_putwch.c", "kernel/fpm_getwch.c", "kernel/fpm_wputs.c"]}
{"id": "C12", "title": "fpm_puts and fpm_utf8len agree with the character view of a string", "statement": "For every sequence of non-NUL characters, printing its UTF-8 encoding with fpm_puts emits exactly the bytes fpm_wputs emits for the characters, fpm_utf8len of the encoding equals the number of characters, and fpm_strwlen of the character string equals the same number.", "quantifier": "all character strings", "why_tests_cant": "Unbounded strings.", "anchors": ["kernel/fpm_puts.c", "kernel/fpm_strwlen.c", "kernel/fpm_wputs.c"]}
{"id": "C13", "title": "Bounded copies stay in bounds, terminate and report the source length", "statement": "fpm_strlcpy and fpm_strlcpy_unicode write at most nitems items, leave the destination equal to the first min(nitems-1, length) items of the source followed by NUL whenever nitems>0, touch nothing when nitems=0, and return the length of the source.", "quantifier": "all strings, all nitems", "why_tests_cant": "All length/size combinations.", "anchors": ["kernel/fpm_strlcpy.c: fpm_strlcpy, fpm_strlcpy_unicode"]}
{"id": "C14", "title": "UTF-8 string conversion round-trips", "statement": "For every character string s and a sufficiently large buffer, decoding with fpm_strlcpy_from_utf8 the output of fpm_strlcpy_to_utf8 gives s back; a too-small character buffer yields the longest prefix that fits, NUL-terminated, never writing beyond nitems characters.", "quantifier": "all character strings, all buffer sizes", "why_tests_cant": "Unbounded strings and sizes.", "anchors": ["kernel/fpm_strlcpy.c: fpm_strlcpy_from_utf8, fpm_strlcpy_to_utf8"]}
{"id": "C15", "title": "fpm_strlcpy_to_utf8 never writes more than nitems bytes", "statement": "For every source string and every nitems, fpm_strlcpy_to_utf8 writes at most nitems bytes to the destination, NUL-terminates it, and its result is the encoding of a prefix of the source.", "quantifier": "all strings, all nitems", "why_tests_cant": "Needs every mix of 1/2/3-byte characters against every size.", "anchors": ["kernel/fpm_strlcpy.c: fpm_strlcpy_to_utf8"]}
{"id": "C16", "title": "Malformed UTF-8 input is not read past its terminator", "statement": "fpm_puts and fpm_strlcpy_from_utf8 never read beyond the terminating NUL of their input, whatever bytes the string contains.", "quantifier": "all NUL-terminated byte strings", "why_tests_cant": "Truncated sequences at the very end of a string are rarely tested and the over-read is silent.", "anchors": ["kernel/fpm_puts.c", "kernel/fpm_strlcpy.c: fpm_strlcpy_from_utf8"]}
{"id": "C17", "title": "Any argument vector can be quoted", "statement": "For every list of non-empty NUL-free arguments, writing each argument with every special character escaped by a backslash (or quoted) and joining by spaces gives a command line that fpm_tokenize splits back into exactly that list.", "quantifier": "all argument lists over all bytes", "why_tests_cant": "Unbounded lists and bytes.", "anchors": ["kernel/fpm_tokenize.c: fpm_tokenize"]}
{"id": "C18", "title": "Tokenizing in place equals the shell-word specification", "statement": "For every command line, the in-place splitter yields the same argument strings as a stand-alone specification of words, quotes and backslashes working on immutable text: overwriting the line while reading it never corrupts unread input or already produced arguments.", "quantifier": "all command lines", "why_tests_cant": "In-place aliasing hazards depend on unbounded combinations.", "anchors": ["kernel/fpm_tokenize.c: fpm_tokenize"]}
{"id": "C19", "title": "Tokenizer errors exactly on incomplete quoting", "statement": "fpm_tokenize returns an error iff the line ends inside an open apostrophe, open quote, or after a lone backslash, with the message naming that construct.", "quantifier": "all command lines", "why_tests_cant": "All nesting combinations.", "anchors": ["kernel/fpm_tokenize.c: fpm_tokenize"]}
{"id": "C20", "title": "Tokenizer writes stay inside the command line", "statement": "fpm_tokenize never writes beyond the terminating NUL of the command line.", "quantifier": "all command lines", "why_tests_cant": "One byte past the end goes unnoticed in tests with roomy buffers.", "anchors": ["kernel/fpm_tokenize.c: fpm_tokenize"]}
{"id": "C21", "title": "Tokenizer never yields an empty argument and argc is bounded by the line length", "statement": "Every argument returned is non-empty, argv[argc] is NULL, 2*argc is at most length+1, and the shell's fixed argument array is large enough for any line the editor can return.", "quantifier": "all command lines (all lines up to the shell's limit)", "why_tests_cant": "Needs the worst-case line.", "anchors": ["kernel/fpm_tokenize.c: fpm_tokenize", "kernel/fpm_shell.c: fpm_shell"]}
{"id": "C22", "title": "Option parsing visits every argument once, in order", "statement": "For every argument vector of recognised options (short, clustered, long, with or without values) and plain arguments, successive fpm_getopt calls return exactly the list an independent option grammar assigns to it - plain arguments reported as code 1 with their text, in order - and then -1 with the index at the end or just after the first `--`.", "quantifier": "all argument vectors over declared options", "why_tests_cant": "Unbounded vectors.", "anchors": ["kernel/fpm_getopt.c: fpm_getopt"]}
{"id": "C23", "title": "Short option clusters behave like separate options", "statement": "A cluster -abc of no-argument options yields the same results as -a -b -c; an option with required argument takes the rest of the cluster or the following argument.", "quantifier": "all option sets and clusters", "why_tests_cant": "Unbounded combinations.", "anchors": ["kernel/fpm_getopt.c: fpm_getopt"]}
{"id": "C24", "title": "Long options accept exact names and unambiguous prefixes", "statement": "--name, --name=value and --name value are resolved to the option with that exact name, or else to the only option having it as a prefix.", "quantifier": "all option tables and spellings", "why_tests_cant": "Unbounded tables.", "anchors": ["kernel/fpm_getopt.c: fpm_getopt"]}
{"id": "C25", "title": "Option parsing always terminates and recovers after an error", "statement": "Whatever the argument vector, a loop calling fpm_getopt until -1 ends, never reads outside argv or the option tables, and after an unknown or ambiguous option the following arguments are still parsed from their first character.", "quantifier": "all argument vectors, including erroneous ones", "why_tests_cant": "Error-recovery state persists between calls.", "anchors": ["kernel/fpm_getopt.c: fpm_getopt"]}
{"id": "C26", "title": "The line editor implements cursor editing and respects the buffer", "statement": "For every sequence of keys the buffer equals what an abstract editor (text left of cursor, text right of cursor, capacity) produces, the insertion point stays within the text, and the text never exceeds the capacity.", "quantifier": "all key sequences, all initial lines", "why_tests_cant": "Unbounded key sequences.", "anchors": ["kernel/fpm_editline.c: fpm_editline"]}
{"id": "C27", "title": "The screen always shows the edited line", "statement": "After every key, an ideal terminal that received the editor's output shows prompt plus current text with the cursor at the insertion point.", "quantifier": "all key sequences", "why_tests_cant": "Screen/buffer divergence needs particular sequences.", "anchors": ["kernel/fpm_editline.c: fpm_editline", "kernel/fpm_editline.c: erase_line, insert_character, delete_character"]}
{"id": "C28", "title": "The shell's line buffer cannot overflow", "statement": "With the buffer and size that the shell passes to the line editor, no key sequence makes the editor write outside the buffer.", "quantifier": "all key sequences", "why_tests_cant": "Needs a line longer than any test types.", "anchors": ["kernel/fpm_editline.c: fpm_editline", "kernel/fpm_shell.c: fpm_shell"]}
{"id": "C29", "title": "History recall is lossless", "statement": "Up-arrow replaces the line by the previous one, and down-arrow right after restores the original line exactly, with the cursor at the end.", "quantifier": "all lines fitting the buffers", "why_tests_cant": "All lines.", "anchors": ["kernel/fpm_editline.c: fpm_editline"]}
{"id": "C30", "title": "Key decoding is total and resynchronises", "statement": "fpm_getkey returns plain characters unchanged, maps each documented escape sequence to its key, skips any other escape sequence, and after any key the following input is decoded independently of what was decoded before.", "quantifier": "all input byte streams", "why_tests_cant": "Unbounded streams.", "anchors": ["kernel/fpm_getkey.c: fpm_getkey"]}
{"id": "C31", "title": "Day of the week is correct for every Gregorian date", "statement": "fpm_get_dotw(year,month,day) agrees with the calendar obtained by counting days from a known Saturday, for every valid date from year 1 on; consecutive dates give consecutive weekdays.", "quantifier": "all valid dates", "why_tests_cant": "Infinitely many dates; century rules.", "anchors": ["kernel/fpm_get_dotw.c"]}
{"id": "C32", "title": "12-hour display of time is faithful", "statement": "The hour and AM/PM printed by the time command lie in 1..12 and determine the 24-hour value uniquely.", "quantifier": "all times of day", "why_tests_cant": "Finite but boundaries (0, 12) matter.", "anchors": ["kernel/cmd/cmd_time.c: fpm_cmd_time"]}
{"id": "C33", "title": "Directory listing is a sorted permutation of the directory", "statement": "The listing sorted by name (forward or reverse) contains every scanned entry exactly once, in the requested order.", "quantifier": "all directories, all options", "why_tests_cant": "Unbounded directories.", "anchors": ["kernel/cmd/cmd_dir.c: chain_sort, chain_merge, chain_mid_point, compare_list_items, list_sort"]}
{"id": "C34", "title": "Time-sorted listing is newest first", "statement": "With -t, entries are listed by decreasing modification time for all FAT timestamps (reversed with -r).", "quantifier": "all pairs of FAT timestamps", "why_tests_cant": "Fails only for dates far apart.", "anchors": ["kernel/cmd/cmd_dir.c: compare_list_items"]}
{"id": "C35", "title": "Columnated listing shows each file once and fits the terminal", "statement": "For every list of names, the columnated output contains each printable name exactly once, column-major in sorted order, each column starts at a multiple of the column width, no array access is out of range and no row exceeds the terminal width (unless a single column is used).", "quantifier": "all lists of names, all terminal widths", "why_tests_cant": "All list sizes against all widths.", "anchors": ["kernel/cmd/cmd_dir.c: print_columnized, print_single_column, show_files"]}
{"id": "C36", "title": "File sizes are printed exactly and aligned", "statement": "Every 64-bit size is printed as its decimal digits with a comma every three digits, right-aligned in exactly the width computed for the largest file.", "quantifier": "all 64-bit sizes and maxima", "why_tests_cant": "2^64 values.", "anchors": ["kernel/cmd/cmd_dir.c: print_size, size_len, print_long"]}
{"id": "C37", "title": "cat never staircases and never alters text", "statement": "Output of the cat command is the file's text with only carriage returns inserted; every line feed reaches the terminal when the cursor is in column 0; the result does not depend on how the text is split into chunks.", "quantifier": "all texts and all chunkings", "why_tests_cant": "Unbounded.", "anchors": ["kernel/cmd/cmd_cat.c: puts_with_cr, display_file"]}
{"id": "C38", "title": "printf escape processing is in place, safe and complete", "statement": "The printf application's escape processing replaces each documented escape by its byte and leaves other text alone, never reading past the terminator, never writing ahead of its read position.", "quantifier": "all format strings", "why_tests_cant": "Unbounded strings.", "anchors": ["apps/printf/printf.c: escape"]}
{"id": "C39", "title": "Dynamic binding is complete and shadowing", "statement": "A program is entered only if every import has been bound; each import is bound to its own definition if the program defines it, otherwise to the first entry of that name in the linkmap, searching the child's map before its parents; binding fails exactly if some import has no definition.", "quantifier": "all symbol tables and linkmap chains", "why_tests_cant": "Unbounded tables and chain depth.", "anchors": ["kernel/fpm_loader.c: fpm_invoke, find_address_by_name, fpm_get_name"]}
{"id": "C40", "title": "Running a program releases everything it acquired", "statement": "Whatever the outcome of fpm_exec for an external command, every successful load is matched by an unload and every context push by a pop, and the path buffer is never overrun.", "quantifier": "all outcomes of lookup, load, stack check, context push, binding and run", "why_tests_cant": "Failure paths are hard to provoke together.", "anchors": ["kernel/fpm_exec.c: fpm_exec, find_exe"]}
{"id": "C41", "title": "Block device access never leaves the medium", "statement": "A read or write of sectors outside the medium is refused, for every sector number and count; accepted accesses touch exactly the requested sectors.", "quantifier": "all sector/count pairs", "why_tests_cant": "2^64 pairs; wrap-around only at the top.", "anchors": ["unix/diskio_unix.c: disk_read, disk_write", "pico/flash.c: flash_read, flash_write", "tools/uf2fat/diskio.cpp"]}
{"id": "C42", "title": "CRC tables implement the stated polynomials", "statement": "CRC-7, CRC-16/CCITT and CRC-32 computed by the table code equal bit-by-bit polynomial division for every message, and feeding a message in pieces gives the same result as in one go.", "quantifier": "all messages of any length", "why_tests_cant": "Unbounded messages.", "anchors": ["pico/sd_pico/crc.c", "apps/rz/crc.c"]}
{"id": "C43", "title": "CRC detects every single corrupted byte and every burst up to its width", "statement": "Two messages of equal length that differ only within a window not longer than the CRC width never have the same CRC; in particular any single-byte change is detected by the 16-bit and 32-bit codes (a byte is wider than the 7-bit code's window).", "quantifier": "all messages and all error patterns in a window", "why_tests_cant": "Unbounded.", "anchors": ["pico/sd_pico/crc.c", "apps/rz/crc.c", "apps/rz/zheaders.c"]}
{"id": "C44", "title": "ZMODEM hex headers round-trip", "statement": "Every header encoded as a hex header by the sender side and parsed by the receiver side is accepted with the same type and flag bytes; changing any one hex digit (to another lower-case hex digit) makes it rejected.", "quantifier": "all 2^40 headers, all single-digit corruptions", "why_tests_cant": "Domain too large.", "anchors": ["apps/rz/zheaders.c: zm_to_hex_header, zm_calc_hdr_crc", "apps/rz/zserial.c: zm_read_hex_header", "apps/rz/znumbers.c"]}
{"id": "C45", "title": "Escaped data subpackets are decoded exactly", "statement": "For every payload and frame-end type, the ZDLE-escaped byte stream produced by a conforming sender (escaping at least the reserved bytes; XON/XOFF noise may be interspersed) followed by its CRC is decoded to the same payload and frame end; the same stream with corrupted CRC is reported as bad CRC.", "quantifier": "all payloads, all sender escaping choices", "why_tests_cant": "Unbounded payloads.", "anchors": ["apps/rz/zserial.c: zm_read_escaped, recv_data_block, zm_read_data_block"]}
{"id": "C46", "title": "The receiver's data buffer is never overrun", "statement": "Whatever bytes arrive, receiving a data subpacket writes at most the buffer's size and reports out-of-space beyond it; five consecutive cancel characters cancel.", "quantifier": "all incoming byte streams", "why_tests_cant": "Hostile inputs are unbounded.", "anchors": ["apps/rz/zserial.c: recv_data_block, zm_read_escaped"]}
{"id": "C47", "title": "A received file is the in-order concatenation of the good subpackets", "statement": "For every sequence of headers and subpackets (good or corrupt), the bytes written to the file are the payloads of the CRC-valid subpackets in order, every position reported back equals the number of bytes written for that file, and each file is closed once.", "quantifier": "all sessions", "why_tests_cant": "Unbounded event sequences.", "anchors": ["apps/rz/rz.c: rz"]}
{"id": "C48", "title": "Sending a hex header transmits exactly the header bytes", "statement": "Sending any header transmits its encoding and the line terminator and nothing else, without reading outside the header buffer.", "quantifier": "all headers", "why_tests_cant": "Over-read is invisible when the next byte happens to be NUL.", "anchors": ["apps/rz/zserial.c: zm_send_sz, just_send_hex_hdr", "apps/rz/zheaders.c: zm_to_hex_header"]}
{"id": "C49", "title": "On-disk integers are little-endian and round-trip", "statement": "Storing then loading a 16/32/64-bit field returns the value and touches exactly its bytes.", "quantifier": "all values", "why_tests_cant": "2^64 values.", "anchors": ["fatfs/fatfs.c: ld_word..ld_qword, st_word..st_qword"]}
{"id": "C50", "title": "FAT entries are independent", "statement": "Setting the FAT entry of one cluster and reading it back gives the value (masked to the FAT width), and the entry of every other cluster is unchanged - also for FAT12 entries sharing bytes or straddling sectors and for the reserved top bits of FAT32.", "quantifier": "all FAT images, all clusters, all values", "why_tests_cant": "Unbounded images.", "anchors": ["fatfs/fatfs.c: get_fat, put_fat"]}
{"id": "C51", "title": "Cluster chains stay disjoint and acyclic", "statement": "From a file system whose chains are disjoint, acyclic and properly terminated, stretching a chain or creating one yields such a file system again with exactly one more used cluster, which was free; allocation fails exactly if no free cluster exists.", "quantifier": "all well-formed FATs", "why_tests_cant": "Unbounded FATs and histories.", "anchors": ["fatfs/fatfs.c: create_chain"]}
{"id": "C52", "title": "Removing a chain frees exactly that chain", "statement": "Removing or truncating a chain frees exactly its (remaining) clusters, keeps every other chain intact, and the free-cluster count stays exact.", "quantifier": "all well-formed FATs", "why_tests_cant": "Unbounded FATs.", "anchors": ["fatfs/fatfs.c: remove_chain"]}
{"id": "C53", "title": "A crash between FAT updates never cross-links files", "statement": "At every intermediate point of stretching, truncating or removing a chain, all chains of other files are intact and no cluster belongs to two chains; at worst clusters are lost.", "quantifier": "all crash points of all chain operations", "why_tests_cant": "Crash points times states.", "anchors": ["fatfs/fatfs.c: create_chain, remove_chain, f_truncate"]}
{"id": "C54", "title": "File read/write/seek behave like a byte array with a position", "statement": "For every history of f_write, f_read, f_lseek and f_truncate on an open file (disk not full), the bytes read equal those of an abstract byte array with a file position, and the size is as in that model.", "quantifier": "all histories, all cluster sizes, all data", "why_tests_cant": "Unbounded histories; sector/cluster boundary interactions.", "anchors": ["fatfs/fatfs.c: f_read, f_write, f_lseek, f_truncate"]}
{"id": "C55", "title": "File locks admit one writer or many readers", "statement": "For every history of opens, closes, removals, no file is ever open for writing while open elsewhere, the table never holds the same object twice, a failed open leaves the table unchanged, and closing everything empties it.", "quantifier": "all histories of lock operations", "why_tests_cant": "Unbounded histories.", "anchors": ["fatfs/fatfs.c: chk_share, inc_share, dec_share, clear_share, enq_share"]}
{"id": "C56", "title": "Long file names round-trip through directory entries", "statement": "Splitting any long name of up to 255 units into directory entries and collecting the entries back gives the name; comparing a stored entry chain with a name succeeds iff they are equal up to case.", "quantifier": "all names", "why_tests_cant": "Unbounded names.", "anchors": ["fatfs/fatfs.c: put_lfn, pick_lfn, cmp_lfn, sum_sfn"]}
{"id": "C57", "title": "File-name transcoding is lossless", "statement": "Every Unicode scalar value converted to UTF-8 by the directory reader and converted back by the path parser is unchanged, and malformed sequences are rejected.", "quantifier": "all Unicode code points and all byte sequences", "why_tests_cant": "1.1M code points; all byte strings.", "anchors": ["fatfs/fatfs.c: tchar2uni, put_utf"]}
{"id": "C58", "title": "Wildcard matching implements ? and *", "statement": "f_findfirst/f_findnext patterns match exactly the names described by ? (one character) and * (any run), case-insensitively, within the documented recursion limit.", "quantifier": "all patterns and names", "why_tests_cant": "Unbounded.", "anchors": ["fatfs/fatfs.c: pattern_match, get_achar"]}
{"id": "C59", "title": "Rewriting a program's jump table routes import i to slot i", "statement": "After the elfexe tool processes an executable's PLT, the stub of import i jumps through slot i of the binding table, for every number of imports, and bytes outside the stubs are unchanged.", "quantifier": "all import counts and code bytes", "why_tests_cant": "Immediate-field overflow needs many imports.", "anchors": ["tools/elfexe/elfexe.c: process_amd64_plt, process_arm64_plt, process_arm32_plt"]}
{"id": "C60", "title": "A saved UF2 image reproduces the flash contents", "statement": "Writing a sector range as UF2 blocks and applying those blocks to a flash of the same geometry reproduces every sector; the file system area starts beyond the program and on its alignment boundary.", "quantifier": "all images and offsets", "why_tests_cant": "Unbounded images.", "anchors": ["tools/uf2fat/format.cpp: write_sector, save_image, scan_block, format_filesystem"]}
{"id": "C61", "title": "Copying a file copies every byte", "statement": "Copying a file of any length through the fixed-size buffer gives a destination with identical contents when no error is reported, and an error is reported whenever a write is short.", "quantifier": "all file contents and lengths, all short-read/short-write outcomes", "why_tests_cant": "Unbounded.", "anchors": ["kernel/cmd/cmd_copy.c: copy_file"]}
{"id": "C62", "title": "Copying into a directory appends each source's own base name", "statement": "For every list of source paths, the destination of each is directory/basename(source), never reading outside the source string or writing outside the path buffer.", "quantifier": "all source lists", "why_tests_cant": "Earlier sources influence later ones.", "anchors": ["kernel/cmd/cmd_copy.c: copy_to_directory", "kernel/cmd/cmd_rename.c: move_files_to_directory"]}
{"id": "C63", "title": "The shell prompt fits its buffer", "statement": "For every current directory the prompt string built by the shell fits in the prompt buffer.", "quantifier": "all current-directory paths", "why_tests_cant": "Needs long directory names.", "anchors": ["kernel/fpm_shell.c: build_prompt"]}
{"id": "C64", "title": "Text line I/O round-trips", "statement": "Writing lines with f_puts and reading them with f_gets yields the same lines for any line lengths and any buffer size at least as large as the line plus terminator.", "quantifier": "all lists of lines", "why_tests_cant": "Unbounded.", "anchors": ["fatfs/fatfs.c: f_gets, f_puts, putc_bfd, putc_flush"]}
{"id": "C65", "title": "Dates accepted by the date command exist", "statement": "A date the date command accepts is a date of the Gregorian calendar, every such date of the years 2000..9999 is accepted, and the clock receives its correct weekday.", "quantifier": "all triples of numbers", "why_tests_cant": "Month lengths and leap years.", "anchors": ["kernel/cmd/cmd_date.c: set_date", "pico/rtc_pico.c: fpm_set_datetime"]}
{"id": "C66", "title": "File time stamps are faithful and ordered", "statement": "The modification time dir shows for a file is the date and time of the clock when it was written, and later times give larger stamps.", "quantifier": "all dates and times the clock can hold", "why_tests_cant": "Bit-field packing over 5e11 time values.", "anchors": ["fatfs/fatfs.c: get_fattime", "kernel/cmd/cmd_dir.c: print_time"]}
{"id": "C67", "title": "Loading any file is memory-safe", "statement": "Whatever file is given as a program - truncated, garbage or malicious - the loader reads only bytes of the file and either refuses it or binds it.", "quantifier": "all files", "why_tests_cant": "Malformed ELF structures are unbounded in variety.", "anchors": ["kernel/fpm_loader.c: fpm_load, fpm_get_name"]}
{"id": "C68", "title": "A successful SD card transfer moved all blocks", "statement": "If writing blocks to the SD card is reported as successful, the card has accepted every block; if reading is reported as successful, every block arrived with a matching checksum; transfers beyond the card are refused.", "quantifier": "all behaviours of the card", "why_tests_cant": "Needs a card that rejects individual blocks.", "anchors": ["pico/sd_pico/sd_card.c: in_sd_write_blocks, in_sd_read_blocks"]}
{"id": "C69", "title": "A received file is stored under the name the sender gave", "statement": "When the receiver opens a file, the name is the one in the subpacket after the file header: its bytes up to the first zero byte or all of them; the buffer is not read past its end.", "quantifier": "all names, all contents of the buffer", "why_tests_cant": "Depends on uninitialised and stale buffer contents.", "anchors": ["apps/rz/rz.c: rz, case ZFILE"]}
{"id": "C70", "title": "Only programs for this machine are loaded", "statement": "A file whose header is not that of a little-endian shared object of version 1 for the native word size and machine is refused, before anything behind the header is looked at; whatever is loaded has such a header.", "quantifier": "all files of at least 20 bytes", "why_tests_cant": "All possible headers.", "anchors": ["kernel/fpm_loader.c: fpm_load"]}
{"id": "C71", "title": "The second FAT is a copy of the first", "statement": "Whenever flushing the window reports success, the two copies of the FAT on the device are equal, if they were equal before the first change.", "quantifier": "all FAT contents, all sequences of entry reads and writes, all failures of the device", "why_tests_cant": "All interleavings of window moves with device failures.", "anchors": ["fatfs/fatfs.c: sync_window, move_window, put_fat"]}
{"id": "C72", "title": "A damaged FAT neither hangs nor spreads", "statement": "Whatever is in the FAT, stretching and removing chains come to an end with a defined result; stretching changes at most the entry of the given cluster and one free entry, removing only frees entries and marks the given end; nothing outside of the FATs changes.", "quantifier": "all FAT contents, also with loops, all clusters, all failures of the device", "why_tests_cant": "All possible damaged tables.", "anchors": ["fatfs/fatfs.c: create_chain, remove_chain"]}
{"id": "C73", "title": "Upper-case conversion is a projection that keeps special characters apart", "statement": "Converting a code unit to upper case stays within its tables for every value, is idempotent, maps only zero to zero, converts ASCII as ASCII, maps nothing else into ASCII, and leaves surrogates and packed surrogate pairs alone. Names compared without case therefore never become empty or gain path separators.", "quantifier": "all numbers", "why_tests_cant": "The tables are compressed with nine kinds of blocks; the idempotence over all values depends on every block.", "anchors": ["fatfs/unicode.c: ff_wtoupper"]}
{"id": "C74", "title": "File names in paths are taken, shortened and listed faithfully", "statement": "Each segment of a path - whatever its bytes - is refused or read as the text its bytes spell, without access outside of the path and the 256-unit buffer. A segment in correct UTF-8 is taken just if it has only allowed characters, up to 255 UTF-16 units, and is more than spaces and dots; spaces and dots at its end are dropped. The short form and the flags of a name say exactly whether and how it is an 8.3 name; a name that needs no long name entry is listed from its short entry exactly as given, including case, and a long name of up to 255 bytes is listed as given. 8.3 names share a directory form just if they are equal but for ASCII case.", "quantifier": "all paths, all buffers, all texts", "why_tests_cant": "The loop interleaves body, extension, loss and case flags; the combinations are unbounded.", "anchors": ["fatfs/fatfs.c: create_name", "fatfs/fatfs.c: get_fileinfo"]}
{"id": "C75", "title": "Directories keep their objects: creating adds one, removing takes one away, names stay unique", "statement": "Listing a directory gives every object but . and .. once, with its name, even with leftovers of long names in the table. A name finds the first object it means (long name up to case, or short name), or none. Creating a name that means no object is refused without change - only if the table cannot be stretched or 99 numbered names are in use - or adds exactly one object, with a short name no other has, which is then found by the name in any case and listed as given; names stay unique. Removing what was found removes exactly this object. If only some of the writes get done, all other objects are intact, and the one created is absent or the one removed still there under its short name.", "quantifier": "all tables of any length, all names, all crash points between sector writes of entries", "why_tests_cant": "Long names spread over entries, deleted entries, and leftovers combine without bound; crash points need a proof over prefixes of writes.", "anchors": ["fatfs/fatfs.c: dir_read, dir_find, dir_alloc, gen_numname, dir_register, dir_remove", "fatfs/fatfs.c: f_readdir"]}
{"id": "C76", "title": "The firmware looks for the file system where the tool puts it", "statement": "For every program, the address at which uf2fat places the file system equals the address at which the firmware's flash driver expects it, so that sector s written by the tool is sector s read by the firmware.", "quantifier": "all program lengths, all sectors", "why_tests_cant": "Only one program length in 256 makes the two rounding rules differ, so a test with a given firmware passes.", "anchors": ["tools/uf2fat/format.cpp: format_filesystem", "pico/flash.c: flash_probe"]}
{"id": "C77", "title": "What f_sync and f_close report as stored is on the device", "statement": "When f_sync or f_close returns success, the device - without anything in memory - holds exactly the bytes the file has: size and first cluster in its directory entry, chain in the FAT, bytes in the clusters. Opening it again after a loss of power gives the same bytes. Other entries in the directory sector and other files are as before. After any sequence of reads, writes, seeks and truncations the file object knows whether something has to be stored.", "quantifier": "all volumes, all files, all histories of operations, all device failures for a single call", "why_tests_cant": "Whether a change is stored depends on flags in the file object, the window and a buffer, for histories of any length; failures can strike at any transfer.", "anchors": ["fatfs/fatfs.c: f_sync, f_close, sync_fs, f_open", "fatfs/fatfs.c: st_clust, ld_clust"]}
{"id": "C78", "title": "A mounted volume is well formed, a well-formed volume is mounted", "statement": "Mounting a device, whatever is on it and however it fails, looks only at bytes inside of sectors, writes nothing and returns a code. If it returns success, the parts of the volume - reserved sectors, FATs, root directory, clusters - follow each other inside of the volume without overlap, each FAT has an entry for every cluster, the kind of FAT follows from the number of clusters, and the sector for free counts is a reserved one. Every volume of this form, at the start of a device or in the first partition that has a boot sector, is mounted with the numbers its boot sector gives and the stored number of free clusters.", "quantifier": "all contents of all sectors, all sector sizes, all failures of the device", "why_tests_cant": "All boot sectors: the numbers in it are multiplied and added in 32 bits.", "anchors": ["fatfs/fatfs.c: check_fs, find_volume, mount_volume"]}
{"id": "C79", "title": "Formatting makes an empty volume that can be mounted", "statement": "Making a filesystem ends with a result code for every size of the device, block size, buffer, option and failure of the device; it never writes beyond the end of the device, and a request that is turned down changes nothing. Success means that the device has a boot sector that describes a well-formed volume up to the end of the device, of a kind that was asked for, a partition table with this volume only unless none was wanted, a FAT without chains but that of the root directory, a root directory without entries, and the right number of free clusters; mounting gives this volume. The commands format flash: and format sd: succeed on every working device of 128 to 8387364 sectors, or of at least 66138 sectors.", "quantifier": "all sizes below 2^32 sectors, sector sizes, block sizes, options, buffer lengths, contents and failures of the device", "why_tests_cant": "The layout is a search over cluster sizes with arithmetic on 32 bits, for four billion sizes; the failures of the device are a sequence.", "anchors": ["fatfs/fatfs.c: f_mkfs, create_partition", "kernel/cmd/cmd_format.c: format_drive"]}
{"id": "C80", "title": "Directories on the device", "statement": "A directory in the fixed root area or in a chain of clusters is found, listed, extended and shortened on the device as its list of objects says: names are found just if they mean an object; listing gives each object once; creating adds one object, with its name, and takes a new cluster only if there is no room; removing takes away that object only. Files, other directories and all sectors outside the directory stay as they are. Only a failing device, a full volume or directory, or 99 used numbered names prevent it. A crash at any time leaves the old objects, with or without the one that is changed.", "quantifier": "all FAT12, FAT16 and FAT32 volumes, all contents of directories, all names, all failures of the device, all times of a crash", "why_tests_cant": "Directories span sectors and clusters, one window serves FAT and directory, and the order of writes matters only if the power fails.", "anchors": ["fatfs/fatfs.c: dir_clear, dir_sdi, dir_next, dir_alloc, dir_read, dir_find, dir_register, dir_remove, f_readdir"]}
{"id": "C81", "title": "Paths lead to one place", "statement": "On a volume with a tree of directories each path leads to exactly one place: an object, a directory itself, a free name in a directory, or nowhere because a segment is no name or a directory is missing. Following a path ends there, with the entry of the object or with the name ready to be registered, for absolute and relative paths, with any number of separators of both kinds, and with . and .. ; it changes nothing. Bytes that are no text give an error, never undefined behaviour or an endless loop. Only a failing device can prevent it.", "quantifier": "all trees of directories on FAT12, FAT16 and FAT32 volumes, all current directories, all paths as bytes, all failures of the device", "why_tests_cant": "Paths have any number of segments, directories any number of objects on any sectors, and a tree any depth.", "anchors": ["fatfs/fatfs.c: follow_path, create_name"]}
{"id": "C82", "title": "Removing files and directories", "statement": "Removing what a path leads to either changes nothing, for a reason that is reported (no such object, no path, no name, in use, read-only, the current directory, a directory that has objects), or the object has gone: with its clusters, which are free again, and with the directory it leads to. All other objects, their clusters and the current directory are still there, and all is on the device. If the device fails, other directories, contents of files, and chains of other objects are intact all the same.", "quantifier": "all trees of directories on FAT12, FAT16 and FAT32 volumes, all current directories, all paths, all locks, all failures of the device", "why_tests_cant": "The reasons combine, the clusters freed are those of one object among any number on a device, and the device may fail at any time.", "anchors": ["fatfs/fatfs.c: f_unlink, dir_remove, remove_chain, sync_fs", "kernel/cmd/cmd_remove.c"]}
{"id": "C83", "title": "Making directories", "statement": "Making a directory by path, on a device that does not fail, either changes no object - it is refused because there is something with this name already, the path leads nowhere, the name is bad, or there is no place - or there is exactly one new object, a directory that the path leads to now, with the time given. In it is nothing but an entry for itself and one for the directory where it was made. All other objects and contents of files are as before, no cluster is lost, and all is on the device.", "quantifier": "all trees of directories on FAT12, FAT16 and FAT32 volumes, all current directories, all paths, all times", "why_tests_cant": "A cluster is taken, cleared, entered, and given back on failure; parents may have to grow at the same time, and what is left over after a refusal shows only later.", "anchors": ["fatfs/fatfs.c: f_mkdir, create_chain, dir_clear, dir_register, remove_chain, sync_fs", "kernel/cmd/cmd_mkdir.c"]}
{"id": "C84", "title": "Opening files", "statement": "Opening a file by path, on a device that does not fail, either is refused for a reason that is reported, and changes nothing (no such file and the mode does not make one, no path, no name, a directory, read-only, exists though it must be new, in use, too many open); or it should make the file and there is no place for its entry; or there is a file that the path leads to: the one that was there, with its contents, or emptied if the mode says so (its clusters are free again), or a new one that is empty. The file object stands for exactly this file, at the start or the end as the mode says, and can be read or written as the mode says. The table of open objects counts one more user. All other objects and contents of files are as before, no cluster is lost.", "quantifier": "all trees of directories on FAT12, FAT16 and FAT32 volumes, all current directories, all paths, all 256 modes, all tables of open objects, all times", "why_tests_cant": "Sixty-four modes times everything a path may lead to times what others have open; an emptied file gives back clusters of any number, and the wrong cluster given back shows only when another file is read.", "anchors": ["fatfs/fatfs.c: f_open, follow_path, chk_share, enq_share, inc_share, dir_register, remove_chain", "kernel/cmd/cmd_copy.c"]}
{"id": "C85", "title": "Life of a file, from opening to closing", "statement": "A file that is opened by path, then read, written, moved in and truncated in any order, then flushed or closed, is to the caller an array of bytes that starts with what the file had. Afterwards the same path leads to it, and opening it again gives exactly the bytes the array had at the end. Its entry is in the same place with the same names, its size and clusters fit, the archive attribute and the time tell of the change. All other objects, directories and contents of files are the same, and no cluster is lost or shared. It may be used on after flushing, as often as wanted.", "quantifier": "all trees of directories on FAT12, FAT16 and FAT32 volumes, all paths and modes, all sequences of operations and arguments, all times", "why_tests_cant": "Data go through the buffer of the file, clusters through the FAT window, size and first cluster through the directory entry, which is written last; the three agree only if every order of operations marks what has to be written. A test reads back a few files.", "anchors": ["fatfs/fatfs.c: f_open, f_read, f_write, f_lseek, f_truncate, f_sync, f_close", "kernel/cmd/cmd_copy.c"]}
{"id": "C86", "title": "Renaming by path gives the object its new name and place, and nothing else changes", "statement": "f_rename(old, new) on a volume in order gives the object that the old path leads to the last name of the new path, in the directory of the new path, spelled as in the path. Clusters, size, times and attributes of the object stay the same, but files get the archive attribute. If a directory has moved then its entry `..` leads to the new parent. The old name is gone. All other objects, the data of all files, and the free clusters are as before. The new name may mean the object itself (change of case). Renaming is refused, and nothing is changed, if one of the paths leads nowhere, the object is in use, or another object has the name; if there is no place for the entry, then the object stays as it was. What could be reached by path before can be reached afterwards.", "quantifier": "all trees of directories on FAT12, FAT16 and FAT32 volumes, all pairs of paths", "why_tests_cant": "There are two entries for the same clusters for some time, in directories that can be the same, parent and child, or longer by a cluster afterwards; whether the result is in order depends on both places and on the order of writes. A test renames a few files.", "anchors": ["fatfs/fatfs.c: f_rename, dir_register, dir_remove, follow_path", "kernel/cmd/cmd_rename.c"]}
{"id": "C87", "title": "No series of operations by path damages the volume, and files keep their bytes until a call is about them", "statement": "Take a volume in order - one that has just been formatted and mounted is - and any series of f_mkdir, f_unlink, f_rename, f_chdir, and openings of files with any reads, writes, seeks and truncations until they are closed; calls may fail (no such path, name in use, volume full). Then the volume is in order: chains are disjoint and end, each object has its own chain, which is long enough, `.` and `..` lead where they should, the current directory exists. A file found by its path before is found by the same path, with the same bytes, unless one of the calls was about this file or renamed one of the directories on its path; files that were not there before have been written or renamed by one of the calls. What was written to a file is read from it after any number of calls that are not about it.", "quantifier": "all volumes in order on FAT12, FAT16 and FAT32, all series of calls of any length, all paths, relative and absolute", "why_tests_cant": "Damage by one call shows many calls later, when clusters or entries are used again; the number of series grows with each call. A test has a few short ones.", "anchors": ["fatfs/fatfs.c: f_mkdir, f_unlink, f_rename, f_chdir, f_open, f_read, f_write, f_lseek, f_truncate, f_close, f_mkfs"]}
{"id": "C88", "title": "f_stat, f_opendir and f_findfirst tell about the object where the path leads, and change nothing", "statement": "f_stat with a path tells attributes, size, time and date of the last change, first sector and name of the object where the path leads; with f_opendir and f_readdir until the end, all objects of the directory where the path leads are given, each but `.` and `..` once and in order, with the names they have; with f_findfirst and f_findnext those of them whose names match the pattern. The volume is unchanged afterwards. If the path leads nowhere the result says so; nothing else is told then.", "quantifier": "all volumes in order on FAT12, FAT16 and FAT32, all paths, patterns, and failures of the device", "why_tests_cant": "Needs directories of many forms (long names, chains of clusters, root directories of fixed size), and all paths into them.", "anchors": ["fatfs/fatfs.c:4401-4590 f_opendir, f_readdir, f_findnext, f_findfirst, f_stat", "fatfs/fatfs.c:2346-2486 get_fileinfo"]}
{"id": "C89", "title": "f_statfs tells the number of free clusters", "statement": "f_statfs tells the kind of FAT, the bytes in a cluster, the number of clusters and how many of them are free, whether the number is known already or the FAT has to be scanned, and afterwards it is known; the volume is unchanged. After formatting, all clusters are free but the one of the root directory on FAT32. The command mount shows these numbers in kilobytes and per cent, without overflow.", "quantifier": "all mounted volumes of FAT12, FAT16 and FAT32 whose first two FAT entries are not zero, all contents of the FAT, and failures of the device", "why_tests_cant": "The scans run over all sectors of the FAT with offsets that wrap; errors by one show only for certain sizes and positions of free clusters.", "anchors": ["fatfs/fatfs.c:4594-4709 f_statfs", "kernel/cmd/cmd_mount.c:14-92"]}
{"id": "C90", "title": "The Pico takes a program from where its bytes are", "statement": "If fpm_load_arch of the Pico succeeds, the path leads to a file, and the bytes of that file lie in flash memory from the address it gives, one after another. Loading changes nothing on the volume.", "quantifier": "all FAT volumes in flash memory, all paths, all files and the ways their clusters lie", "why_tests_cant": "Whether the clusters of a file lie one after another depends on everything that was written and removed before.", "anchors": ["pico/flash.c:207-233 fpm_load_arch", "pico/flash.c:152-167 flash_read", "fatfs/fatfs.c:2482-2485 get_fileinfo"]}
{"id": "C91", "title": "The current directory as a path, and the way back", "statement": "f_getcwd gives the name of the disk and the names of the directories from the root to the current directory, as listings show them, and changes nothing. It never accesses bytes outside of its buffer. If there is no room for the path the result says so and the string is empty. Changing to the path it gave, from any directory, leads to the same directory.", "quantifier": "all FAT volumes, all trees of directories of any depth, all names, all sizes of the buffer, also trees with directories moved into themselves", "why_tests_cant": "The path is built backwards in the buffer from links between directories on the device; depth, names and sizes of the buffer are without bound.", "anchors": ["fatfs/fatfs.c:4084-4195 f_getcwd", "fatfs/fatfs.c:2342-2500 get_fileinfo", "fatfs/fatfs.c:3980-4076 f_chdir"]}
{"id": "C92", "title": "rm removes just what it is told to remove", "statement": "On a volume that is in order, the command rm for one path removes nothing unless the path leads to an object, and the user agrees, or gave -f for a file; directories are removed only with -r. When it succeeds, just this object has gone with all that was in it, its clusters are free, and all other directories and files are as before, byte for byte. When it fails midway, only objects in it may have gone, and the tree is in order. The current directory always stays, and no memory outside the arrays is used. With -r it does succeed if nothing in the directory is read-only or open, the current directory is not in it, the path has no dots, and there are places for open directories, one per level; afterwards the same objects are open as before.", "quantifier": "all FAT volumes in order, all trees, all paths without control characters, all options and answers, all tables of open objects; names that can be listed", "why_tests_cant": "The recursion goes over trees of any depth and size, by paths built from names that are read from the volume while entries of the same directory are being deleted.", "anchors": ["kernel/cmd/cmd_remove.c:22-164 remove, remove_file, remove_directory, remove_recursive", "fatfs/fatfs.c:4770-4845 f_unlink", "fatfs/fatfs.c:4401-4520 f_opendir, f_closedir, f_readdir"]}
{"id": "C93", "title": "Files that are open at once do not disturb each other", "statement": "With several files open on one volume, calls of f_read, f_write, f_lseek and f_truncate on them in any order have the results they would have if each file were an array of bytes of its own: what is done with one file never changes the bytes, length or position of another, they only share the free clusters. Files and directories that are not open keep all their bytes, and once the buffer of a file has been written back, the device itself holds its bytes.", "quantifier": "all FAT volumes, any number of open files, all histories of calls on them in any order, all data, positions and lengths", "why_tests_cant": "Clusters change hands between files, while each file has a buffer of its own that may show a sector it had before; whether a stale buffer is used depends on the whole history.", "anchors": ["fatfs/fatfs.c:3639-3743 f_read", "fatfs/fatfs.c:3750-3879 f_write", "fatfs/fatfs.c:4209-4394 f_lseek", "fatfs/fatfs.c:4719-4764 f_truncate"]}
{"id": "C94", "title": "Copying a file gives a file with the same bytes", "statement": "After cp of one file, either there is a message and no copy, for one of the reasons f_open has, or because the user does not want to lose what is there; then all files have their bytes. Or the path of the destination leads to a file with exactly the bytes of the source; if there is no room for all of them, with as many as there is room for, and a message. The source is as before, also when both paths lead to the same file, which is refused. All other files, objects and directories are as before, and the same objects are open as before.", "quantifier": "all FAT volumes in order, all trees, all pairs of paths, files of all lengths, all tables of open objects, all answers of the user", "why_tests_cant": "Source and destination are open at the same time on one volume, one grows while the other is read; whether they can be the same file under two names, and whether the volume is in order when it runs full, depends on the whole state.", "anchors": ["kernel/cmd/cmd_copy.c:22-96 copy_file", "fatfs/fatfs.c:3434-3635 f_open", "fatfs/fatfs.c:3639-3743 f_read", "fatfs/fatfs.c:3750-3879 f_write", "fatfs/fatfs.c:3967-3992 f_close"]}
{"id": "C95", "title": "The flash disk of the Pico is an array of blocks behind the program", "statement": "The part of the flash chip behind the firmware is an array of blocks of 4096 bytes: reading gives what was written last, writing changes only the blocks asked for, requests that do not lie in the array are refused, and nothing ever changes the firmware.", "quantifier": "all chips, all sizes of the firmware that fit, all contents, all sequences of requests", "why_tests_cant": "Byte offsets are computed with 32 bits; only requests far outside of the medium show what wrapping does, and they destroy the firmware.", "anchors": ["pico/flash.c:81-191 flash_probe, flash_block_count, flash_read, flash_write", "pico/diskio.c:248-333 disk_read, disk_write, disk_ioctl"]}
{"id": "C96", "title": "f_chmod and f_utime change what they are asked to, of one object", "statement": "f_chmod sets those of the attributes read-only, hidden, system and archive that the mask selects to the given values, f_utime sets the time of the last change; both do so for exactly the object that the path leads to, and nothing else on the volume changes: all paths lead to the same places, files have the same data. f_stat tells the new values afterwards; an object made read-only cannot be removed, a file made writable again can. If the path leads to no object, or is one of the names . and .., nothing is changed and the result says why.", "quantifier": "all volumes with a tree of directories, all objects and paths, all attributes, masks and times", "why_tests_cant": "There are 2^16 pairs of attributes and masks for each object of each volume; that no other object, link or sector suffers is a statement about the whole volume.", "anchors": ["fatfs/fatfs.c:5057-5094 f_chmod", "fatfs/fatfs.c:5099-5131 f_utime", "fatfs/fatfs.c:1240-1290 sync_fs"]}
{"id": "C97", "title": "Volume labels: what is set is found again, and nothing else changes", "statement": "f_getlabel returns the label of the root directory (its first entry with the label attribute), each byte as a character, without spaces at the end, the empty text if there is none, and the serial number of the boot sector; it changes nothing. f_setlabel refuses texts of more than 11 characters or with characters that labels cannot have, changing nothing; else the label becomes the text in upper case, an empty text removes it, and a volume without label gets one unless its root directory and the volume are full, which is told. f_getlabel afterwards returns the text in upper case. All directories keep their objects and all files their data.", "quantifier": "all volumes with a tree of directories, all texts, all contents of the root directory, all arrays of at least 23 bytes", "why_tests_cant": "The label entry can be anywhere in the root directory, among deleted entries and long names, and may need a new cluster; that no object and no file suffers is a statement about the whole volume.", "anchors": ["fatfs/fatfs.c:5139-5234 f_getlabel", "fatfs/fatfs.c:5240-5345 f_setlabel", "fatfs/fatfs.c:2036-2101 dir_read", "fatfs/fatfs.c:1563-1594 dir_alloc"]}
{"id": "C98", "title": "The array for the label in vol is large enough", "statement": "For every label that a volume may have, f_getlabel called from print_volume_info stays within its array of 32 bytes.", "quantifier": "all labels of FAT volumes (11 bytes) and exFAT volumes (up to 11 units of UTF-16)", "why_tests_cant": "The array is too small only for labels of eleven characters that take three bytes each; tests use ASCII labels.", "anchors": ["kernel/cmd/cmd_vol.c:33-35 print_volume_info", "fatfs/fatfs.c:5161-5202 f_getlabel"]}
{"id": "C99", "title": "Drive names in paths are recognised exactly, and lead to their drive", "statement": "The text before the first colon of a path names a drive if it is its name, in upper or lower case, or one digit, its number; then the rest of the path is that behind the colon. Any other text with a colon is refused, a path without colon is on the current drive. No path makes the code read behind its end, and the number is always that of a drive. Every drive is reached by its name in any case, and the current directory as f_getcwd tells it leads back to its drive. After any series of f_chdrive the current drive is the one named last.", "quantifier": "all paths, all tables of names, all current drives, all series of calls", "why_tests_cant": "Paths are arbitrary texts; that comparing stops in time and that no other text is taken for a name cannot be tested exhaustively.", "anchors": ["fatfs/fatfs.c:2808-2890 get_ldnumber", "fatfs/fatfs.c:3999-4010 f_chdrive", "fatfs/fatfs.c:4015-4022 f_getdrive", "pico/diskio.c:38 disk_name"]}
{"id": "C100", "title": "mv moves a file to the place it is told, replacing a file there only with consent", "statement": "mv with one source and a destination without colon: if the destination is a directory the file goes there under its own last name, else it gets the name of the destination. Afterwards the file can be opened at its new place with the same bytes, its old name is gone, and every other file keeps name and bytes. If there is a file already, it is kept unless the user consents (answer or -f), and then it is replaced by the source. If moving is impossible nothing changes and the message says why.", "quantifier": "all volumes with a tree of directories, all paths and spellings, all tables of open files, all answers", "why_tests_cant": "Whether the entry is written before the old one is removed, found in a full directory, and spelled in another way, depends on the whole volume; the case of an existing destination with consent is never tested.", "anchors": ["kernel/cmd/cmd_rename.c:20-60 rename_file", "kernel/cmd/cmd_rename.c:65-92 move_files_to_directory", "kernel/cmd/cmd_rename.c:94-171 fpm_cmd_rename", "fatfs/fatfs.c:4965-5052 f_rename"]}
{"id": "C101", "title": "mv loses nothing", "statement": "After mv with one source every directory that could be reached from the root directory still can be reached, and every file in them still is in a directory that can be reached, with the same bytes.", "quantifier": "all volumes with a tree of directories, all sources and destinations", "why_tests_cant": "A directory can be moved to any place, also below itself; that all of a tree stays reachable is a statement about paths of any length.", "anchors": ["kernel/cmd/cmd_rename.c:20-171 fpm_cmd_rename", "fatfs/fatfs.c:4965-5052 f_rename"]}
{"id": "C102", "title": "The registers of an SD card are read as the standard defines them", "statement": "ext_bits gives the number in the named bits of a register of 16 bytes. The number of sectors computed from the register CSD is the capacity that the standard defines for its version (1.0 or 2.0), in blocks of 512 bytes; cards of other versions are given capacity zero and are not used. Manufacturer, product name and serial number are those of the register CID.", "quantifier": "all registers of 16 bytes, all ranges of up to 32 bits, all capacities of less than 2^32 blocks", "why_tests_cant": "There are 2^128 registers; version 1.0 cards, with their three factors, are rarely at hand.", "anchors": ["pico/sd_pico/sd_card.c:692-704 ext_bits", "pico/sd_pico/sd_card.c:708-766 sd_sectors_nolock", "pico/sd_pico/sd_card.c:771-820 sd_identification_nolock"]}
{"id": "C103", "title": "Talking to an SD card byte by byte, the driver makes it a correct array of blocks", "statement": "For a card that behaves as the standard says, a series of read and write requests through sd_read_blocks and sd_write_blocks gives the answers of an array of blocks: a read returns what was written last, a write changes the blocks named and no others, requests beyond the end are refused without effect; every transfer of commands, responses, tokens, checksums, data and busy signals ends in a state where the next request can start.", "quantifier": "all cards (versions 1, 2 and high capacity; any delays before responses, before data, and while busy up to the timeouts; any undefined bits), all contents, all series of requests", "why_tests_cant": "The delays and undefined bits are chosen by the card at every byte; a card that is at hand shows one behaviour.", "anchors": ["pico/sd_pico/sd_card.c:286-337 sd_cmd_spi", "pico/sd_pico/sd_card.c:448-619 sd_cmd", "pico/sd_pico/sd_card.c:839-960 sd_read_bytes, sd_read_block, sd_read_blocks", "pico/sd_pico/sd_card.c:962-1087 sd_write_block, sd_write_blocks"]}
{"id": "C104", "title": "Every SD card of the standard is initialised", "statement": "After power-on the driver brings each card into SPI mode, finds out its version, switches on checksums, waits until it is ready, reads its capacity and identification, and changes no data; then requests are served as by an array of blocks (C103).", "quantifier": "all cards of versions 1, 2 and high capacity with valid registers, any delays up to the timeouts, all states of the driver before", "why_tests_cant": "The order of commands depends on the card; that every card gets through cannot be tried.", "anchors": ["pico/sd_pico/sd_card.c:647-690 sd_go_idle_state, sd_cmd8", "pico/sd_pico/sd_card.c:1089-1194 sd_init_medium", "pico/sd_pico/sd_card.c:1212-1265 sd_init_nolock, sd_init"]}
{"id": "C105", "title": "Requests to an SD card come to an end, whatever the card does", "statement": "sd_read_blocks and sd_write_blocks return after finitely many steps for every card, also a defective one; a card that does not respond is initialised again at most once per command, as the comment says.", "quantifier": "all cards, all commands", "why_tests_cant": "A test cannot tell an endless loop from a long wait, and needs a card with the right defect.", "anchors": ["pico/sd_pico/sd_card.c:461-503 sd_cmd"]}
{"id": "C106", "title": "A card that has been out of its slot is served again", "statement": "If a card loses power between requests (is taken out and put in again), the next request notices it, initialises the card again, and is served as if nothing had happened; so for any series of requests with any number of losses of power the answers are those of an array of blocks.", "quantifier": "all cards as in C104, all contents, all series of requests and losses", "why_tests_cant": "Pulling a card at each of all possible points between requests, with all kinds of cards, cannot be tested.", "anchors": ["pico/sd_pico/sd_card.c:448-503 sd_cmd", "pico/sd_pico/sd_card.c:1212-1239 sd_init_nolock"]}
{"id": "C107", "title": "printf prints what its format says, uses the format again for further arguments, and never reads or writes outside its arrays", "statement": "For every format and all arguments the printf application ends without reading behind its format, without overrunning its buffer, and without calling fpm_printf with other arguments than the format needs; it prints each piece of text and each directive with its arguments (missing ones are zero or empty), uses the format again while arguments are left, prints % for %%, and ends with exit code 1 after an argument that is not a number.", "quantifier": "all formats, all lists of arguments, all C libraries whose printf follows the format", "why_tests_cant": "Formats and lists of arguments are unbounded; faults need formats that end in the middle of a directive, are long, or are used again.", "anchors": ["apps/printf/printf.c:218-350 main", "apps/printf/printf.c:59-71 mklong", "apps/printf/printf.c:189-201 getint"]}
{"id": "C108", "title": "Drive 1 is the first slot with a card", "statement": "With any number of slots, of which those before some slot are empty (the switch is open, or the wires never give the response of a card in idle state) and this one has a card of the standard, any series of calls of disk_status, disk_initialize, disk_read, disk_write, disk_ioctl and disk_identify for drive 1 is answered as by an array of blocks with this card's capacity, serial number and name, wherever in the series the first call is that looks for a card; blocks out of range give DISK_PARERR. If all slots are empty, the drive is not ready at each call, and stays so.", "quantifier": "all lists of slots, all cards and makes within the standard's delays, all series of calls", "why_tests_cant": "The order of calls, the number of slots and what unconnected wires give are unbounded; a test has one board with its card.", "anchors": ["pico/diskio.c:179-423", "pico/sd_pico/sd_card.c:1195-1204 sd_probe", "pico/sd_pico/sd_card.c:1300-1349 sd_configure"]}
{"id": "C109", "title": "After exchanging the SD card, requests go to the same blocks of the new card", "statement": "If the card in the slot has been exchanged between two requests, a request for blocks that exist on both cards is answered by the new card as an array of blocks: it reads, and writes, the blocks with these numbers.", "quantifier": "all pairs of cards within the standard, all requests, all makes within the standard's delays", "why_tests_cant": "It needs an exchange between two requests, with cards of different kinds; the outcome is a successful access to other blocks, which is not seen until data are missing.", "anchors": ["pico/sd_pico/sd_card.c:448-503 sd_cmd", "pico/sd_pico/sd_card.c:919-926 in_sd_read_blocks", "pico/sd_pico/sd_card.c:1020-1028 in_sd_write_blocks"]}
{"id": "C110", "title": "gpio changes the pins that are named, and only these", "statement": "For every list of arguments as in the usage message (info, out, in, pu, pd, pins, ranges of pins, assignments; numbers decimal, octal or hexadecimal) the command gpio shows, sets and configures exactly the pins named, in the order given, and leaves all others as they are; any other argument is refused without changing a pin.", "quantifier": "all lists of arguments, all states of the pins, all levels read", "why_tests_cant": "Arguments are unbounded texts; a test cannot show that no text changes a pin it does not name.", "anchors": ["apps/gpio/gpio.c:88-119 get_set", "apps/gpio/gpio.c:125-164 configure", "apps/gpio/gpio.c:166-228 main", "kernel/fpm_strtol.c:21-26 fpm_strtoul"]}
{"id": "C111", "title": "cp -r copies a directory with all that is in it", "statement": "cp -r of a directory to a place outside of it comes to an end whatever goes wrong, and changes nothing outside of the place of the copy. If no message was printed, all files and directories in the source are in the copy with the same bytes, and what else was at that place is still there. If the device works and has room, no message is printed.", "quantifier": "all trees of files and directories, all places for the copy apart from the source, all failures of making, opening, reading and writing, all answers of the user, all positions of new entries", "why_tests_cant": "Trees have any width and depth, the copy may go over existing directories, and failures can occur at any point.", "anchors": ["kernel/cmd/cmd_copy.c:98-153 copy_recursive", "kernel/cmd/cmd_copy.c:158-179 copy_object", "kernel/cmd/cmd_copy.c:299-322 fpm_cmd_copy", "fatfs/ffconf.h:159 FF_FS_LOCK"]}
{"id": "C112", "title": "Copying a directory into itself does no harm", "statement": "cp -r of a directory to a place within itself is refused, or makes one copy of what was there before.", "quantifier": "all trees, all places within the source", "why_tests_cant": "The directory grows while it is being read; what comes of it depends on limits elsewhere in the system.", "anchors": ["kernel/cmd/cmd_copy.c:98-153 copy_recursive"]}
{"id": "C113", "title": "An image made by uf2fat holds what the directory holds", "statement": "When uf2fat fills the file system of an image from a directory and does not end with an error, the file system holds every file and directory found there, with the same contents, and nothing else.", "quantifier": "all directory trees, all failures of the file system", "why_tests_cant": "What is lost depends on names that are different on the host and the same in the image; a test compares the trees it was given.", "anchors": ["tools/uf2fat/format.cpp:13-136 add_directory, add_file, add_contents"]}
{"id": "C114", "title": "Commands leave no files or directories open", "statement": "When a built-in command is over, every file and directory it opened is closed, and none was closed that was not open.", "quantifier": "all commands that open something, all answers of the file system and of the user, at any place", "why_tests_cant": "Only 16 objects can be open at once; an object lost by a command is missed much later, and each error branch of each command would have to be tested.", "anchors": ["kernel/cmd/cmd_cat.c:38-98", "kernel/cmd/cmd_copy.c:22-315", "kernel/cmd/cmd_remove.c:22-225", "kernel/cmd/cmd_dir.c:522-690", "kernel/cmd/cmd_vol.c:87-189 test_speed"]}
{"id": "C115", "title": "Power may be lost while a file is removed", "statement": "If power is lost at any moment while f_unlink removes a file or an empty directory, the device shows all other directories and the data of all files as they were, and the removed object is either still in its directory, with all of its clusters, or gone, with at most a rest of its own chain left over that no object refers to; no chain runs into another one.", "quantifier": "all volumes, trees, paths and states of the cache; every moment at which a sector has been written", "why_tests_cant": "Each moment between two writes to the device is another state; tests with a removed card hit a few, and the damage is seen much later, when clusters of one file are given to another.", "anchors": ["fatfs/fatfs.c:4770-4845 f_unlink", "fatfs/fatfs.c dir_remove, remove_chain, put_fat"]}
{"id": "C116", "title": "f_expand gives an empty file one contiguous block of free clusters if there is one, and otherwise changes nothing", "statement": "f_expand(fp, size, 1) for an empty file opened for writing: if the FAT has a run of free clusters as long as the size needs, the file gets such a run as its chain, in ascending order, its size is the size asked for, no other chain and no other entry of the FAT changes, and the count of free clusters stays right; if there is no such run, the result is FR_DENIED and neither the FAT nor the file changes. With option 0 nothing is allocated, but the file gets the clusters of the run one after another when it grows next.", "quantifier": "all FAT12/16/32 volumes, FATs, starting points of the search, sizes from 1 to 2^32-1", "why_tests_cant": "The search starts at the cluster allocated last and wraps around, so the result depends on the history of all allocations; tests start with fresh volumes, where the search starts at cluster 2.", "anchors": ["fatfs/fatfs.c:5355-5453 f_expand"]}
{"id": "C117", "title": "Power may be lost while an object is renamed", "statement": "While f_rename renames or moves a file or directory, at every moment the device shows the object with its old name or with its new one, with the same clusters and size, all other objects are shown as before, nothing else is shown, all chains of the FAT and all data of files are what they were; and at no moment do two names refer to the same clusters.", "quantifier": "all volumes, trees of directories, old and new names, current directories, and all moments between two writes to the device", "why_tests_cant": "Each moment between two writes to the device is another state, and which sectors are written, and when, depends on where the two entries, long names and the window are; a test that ends f_rename midway hits a few.", "anchors": ["fatfs/fatfs.c f_rename", "fatfs/fatfs.c dir_register, dir_remove"]}
{"id": "C118", "title": "ls and dir list the files and directories that are named", "statement": "ls PATH... prints a message for each path that does not exist, then the files among the paths, then for each directory among the paths its path and its entries (a single directory without its path); without a path it lists the current directory. This is so for every directory that can be named, in particular with slashes in the path, and no argument leads to undefined behaviour.", "quantifier": "all file systems, options, and numbers and lengths of arguments", "why_tests_cant": "Tests list the current directory or a directory in it; what a path with slashes, of which f_stat tells the last name only, or a long argument in a language with characters of three bytes does, is another case for each file system.", "anchors": ["kernel/cmd/cmd_dir.c:76-125 list_append_file_info, list_append_name", "kernel/cmd/cmd_dir.c:520-686 show_directories, scan_directory, show_dir, fpm_cmd_dir"]}
{"id": "C119", "title": "ls -R lists every directory below exactly once", "statement": "ls -R lists exactly the directories below the given one, each once, with the path that leads there, a directory before those in it and entries of one directory in the order of their names; separated by empty lines. Hidden directories, and those below them, are listed only with -a.", "quantifier": "all file systems (trees of any depth and width, including directories that cannot be opened)", "why_tests_cant": "Each tree is another case; order and separators depend on the nesting.", "anchors": ["kernel/cmd/cmd_dir.c:520-599 show_directories, scan_directory, show_dir"]}
{"id": "C120", "title": "A typed line reaches the command as its words", "statement": "Every line that fits the line buffer is split into words as the quoting rules say, whatever characters it contains, and the command gets exactly these words in UTF-8; a malformed line is reported and not run, a blank line does nothing, all other lines go into the history.", "quantifier": "all lines of 16-bit characters that fit the line buffer, all previous contents of the buffers", "why_tests_cant": "Conversion, splitting in place and history work on shared fixed buffers; errors need particular lengths and multi-byte characters next to quotes.", "anchors": ["kernel/fpm_shell.c:77-111 fpm_shell", "kernel/fpm_tokenize.c fpm_tokenize", "kernel/fpm_strlcpy.c fpm_strlcpy_to_utf8"]}
{"id": "C121", "title": "The first word selects the documented command", "statement": "Every name that help lists, in any spelling in upper and lower case, calls that command with all words; no other name calls it; a name ending with a colon changes the drive; any other name is looked up as a program and reported if there is none.", "quantifier": "all first words, all arguments, all sets of existing files", "why_tests_cant": "All spellings of all names, and all names that must not match.", "anchors": ["kernel/fpm_exec.c:58-135 fpm_exec", "kernel/cmd/cmd_help.c:33-53 fpm_cmd_help", "kernel/fpm_shell.c:102-108 fpm_shell"]}
{"id": "C122", "title": "A session runs its commands in order and remembers the last line", "statement": "In a session of any number of lines exactly the commands typed before the first exit are started, once each and in order; the shell returns if and only if exit was typed alone; the history always holds the last line that was not blank.", "quantifier": "all sequences of lines", "why_tests_cant": "Unbounded sequences.", "anchors": ["kernel/fpm_shell.c:49-113 fpm_shell"]}
{"id": "C123", "title": "echo prints its arguments", "statement": "echo prints its arguments separated by single blanks, followed by a newline unless -n is among them; arguments after -- are printed as they are; typed at the keyboard, text of any 16-bit characters arrives unchanged.", "quantifier": "all lists of arguments, all characters", "why_tests_cant": "All texts and all positions of the option.", "anchors": ["kernel/cmd/cmd_echo.c:8-49 fpm_cmd_echo", "kernel/fpm_puts.c fpm_puts"]}
{"id": "C124", "title": "Power may be lost while a directory is made", "statement": "While f_mkdir makes a directory, at every moment the device shows all directories, files and chains as they were and either nothing more, or one cluster that belongs to nothing, or the new directory, complete with its entries . and ..; a new directory with undefined contents is never shown, and the data of all files is what it was.", "quantifier": "all volumes, trees of directories, paths, current directories, and all moments between two writes to the device", "why_tests_cant": "Each moment between two writes to the device is another state, and when sectors are written depends on where the window is; a test that ends f_mkdir midway hits a few.", "anchors": ["fatfs/fatfs.c:4850-4928 f_mkdir", "fatfs/fatfs.c create_chain, dir_clear, dir_register, sync_fs"]}
{"id": "C125", "title": "Nothing is formatted without confirmation", "statement": "The command format, whatever its arguments and whatever keys are typed, formats a drive only if exactly one drive is named and the reply begins with y or Y; the drive formatted is the one that was named and that the question shows, with the kind of file system meant for it; the question tells the size in MBytes; any other reply, and any other use of the command, formats nothing and says so.", "quantifier": "all argument lists, drive names, spellings, disk sizes, and all sequences of keys typed at the question, including corrections", "why_tests_cant": "All sequences of editing keys, all spellings of names; a test formats a disk for a few replies.", "anchors": ["kernel/cmd/cmd_format.c:13-108 find_drive_unit, format_drive, fpm_cmd_format", "kernel/fpm_editline.c fpm_editline", "fatfs/fatfs.c get_ldnumber, f_mkfs"]}
{"id": "C126", "title": "Power may be lost while a file is opened", "statement": "While f_open opens a file, makes a new one or makes an existing one empty, at every moment the device shows the data sectors of all files as they were, and all directories and chains either as they were or as they are when the file is open (with the new file, or with the file empty); in the latter case there may be a rest of the file's old chain, which belongs to nothing. Never does an entry lead to clusters that are free or belong to another file.", "quantifier": "all volumes, trees of directories, paths, current directories, modes, tables of open objects, and all moments between two writes to the device", "why_tests_cant": "Each moment between two writes to the device is another state, and when sectors are written depends on where the window is; a test that ends f_open midway hits a few.", "anchors": ["fatfs/fatfs.c:3434-3635 f_open", "fatfs/fatfs.c remove_chain, dir_register, move_window"]}
{"id": "C127", "title": "Power lost while files are open harms no other file", "statement": "Whatever is read, written, sought and cut in an open file (or in several), at every moment between two writes to the device each other file and directory is complete on the device: its chain in the FAT and the contents of its clusters are what they were; so is everything in front of the clusters besides the FATs.", "quantifier": "all volumes of FAT12, FAT16 and FAT32, all open files, all histories of operations, and all moments between two writes to the device", "why_tests_cant": "When sectors of the FAT are written depends on where the window is, entries of FAT12 share bytes and cross borders of sectors; each moment between two writes is another state.", "anchors": ["fatfs/fatfs.c:3639-3879 f_read, f_write", "fatfs/fatfs.c:4209-4394 f_lseek", "fatfs/fatfs.c:4719-4764 f_truncate", "fatfs/fatfs.c create_chain, remove_chain, put_fat, move_window"]}
{"id": "C128", "title": "The directory entry on the device always describes a file", "statement": "While an open file is read, written, sought, cut and then flushed by f_sync, at every moment the directory entry on the device describes a file: its size fits into the chain that begins with its first cluster, and the chain is complete. When the entry changes, data and FAT are already on the device; of other files and directories nothing is lost.", "quantifier": "all volumes, all open files, all histories of operations followed by f_sync, and all moments between two writes to the device", "why_tests_cant": "The order of the writes of data, FAT and entry matters only if power is lost between them, and the states in between depend on the position of the window.", "anchors": ["fatfs/fatfs.c:3885-3959 f_sync", "fatfs/fatfs.c:829-855 sync_fs", "fatfs/fatfs.c:4719-4764 f_truncate"]}
{"id": "C129", "title": "rmdir removes the empty directories it is told, and nothing else", "statement": "For each path, one after the other up to the first option, rmdir removes the directory that the path leads to, provided that it is empty, not the current directory, not read-only, not in use and not called . or ..; if not it says why, and nothing changes. No file is ever removed, the data of all files stay as they are, and the volume stays in order. Without paths it shows how it is used.", "quantifier": "all volumes in order, all current directories, all tables of open objects, all lists of paths and options", "why_tests_cant": "What a path leads to depends on all directories of the volume and on what earlier paths of the same command have removed; a test tries a few trees.", "anchors": ["kernel/cmd/cmd_rmdir.c:9-25 remove_directory", "kernel/cmd/cmd_rmdir.c:27-61 fpm_cmd_rmdir"]}
{"id": "C130", "title": "mkdir makes each directory it is told, and changes nothing else", "statement": "For each path, one after the other up to the first option, mkdir makes a directory with this name in the directory that the path leads to; if something of this name exists, if there is no such place or no room, it says so. All objects and the data of all files stay, and the volume stays in order. Without paths it shows how it is used.", "quantifier": "all volumes in order, all current directories, all lists of paths and options, all times", "why_tests_cant": "What a path leads to depends on all directories of the volume and on what earlier paths of the same command have made.", "anchors": ["kernel/cmd/cmd_mkdir.c:9-15 create_directory", "kernel/cmd/cmd_mkdir.c:17-51 fpm_cmd_mkdir"]}
{"id": "C131", "title": "cd goes to directories, and shows a path that leads back", "statement": "cd with a path goes to the directory where the path leads; if that is a file, or nothing, it says so and stays. cd without a path shows the name of the disk and the path from the root directory to the current one, or says that there is no room for it in its array; it never uses memory outside of the array. From any directory, cd with the path shown comes back to the same directory. Nothing on the volume changes.", "quantifier": "all volumes in order, all current directories, all paths, all names of disks, all contents of the arrays before", "why_tests_cant": "The path shown is built from the end, from the entries of all directories above, into an array of fixed size; tests see few depths and lengths of names.", "anchors": ["kernel/cmd/cmd_cd.c:9-15 chdir", "kernel/cmd/cmd_cd.c:17-54 fpm_cmd_cd"]}
{"id": "C132", "title": "vol shows true numbers, and its speed test leaves the disk as it was", "statement": "vol shows the size of the disk rounded down to tenths of a megabyte; the speed test shows time and speed rounded down. The test never writes more than is free, at most 8 megabytes, and reads as many bytes as it has written. However it ends, it leaves the disk as it was, and no file open.", "quantifier": "all sizes, times and numbers of free clusters within what devices can have, and all replies of the file system", "why_tests_cant": "Intermediate products may wrap for some sizes only, and the ends of the test depend on failures at each of thousands of calls.", "anchors": ["kernel/cmd/cmd_vol.c:52-54 print_volume_info", "kernel/cmd/cmd_vol.c:70-83 elapsed_usec, print_speed", "kernel/cmd/cmd_vol.c:88-189 test_speed"]}
{"id": "C133", "title": "Files of a volume that has been ejected are not accepted any more", "statement": "In all histories of mounting, ejecting, taking media out and opening files on all volumes: an open file or directory is accepted by the functions of the file system just if its volume has neither been ejected nor taken out since it was opened. Ejecting or mounting a volume leaves the others, and their locks, as they are, and frees its own locks. After a successful mount the volume can be used.", "quantifier": "all histories, all volumes, all replies of the drives", "why_tests_cant": "Mount numbers have 16 bits, so that a file of a medium removed long ago could be taken for one of the medium that is there now; tests do not mount 65536 times in all orders.", "anchors": ["fatfs/fatfs.c:2992-3044 mount_volume", "fatfs/fatfs.c:3266-3278 mount_volume", "fatfs/fatfs.c:3286-3315 validate", "fatfs/fatfs.c:3327-3390 f_mount, f_unmount"]}
{"id": "C134", "title": "eject and mount touch just the drive they are told", "statement": "The command eject ejects a volume just if its argument begins with a name (in any case) or the number of the drive and a colon; any other argument is refused, and changes nothing. Without an argument it ejects the card, whatever the current drive is. mount mounts just the drive named; what it says is true. With an unknown option, a question for help or more arguments nothing changes.", "quantifier": "all arguments, current drives and states of the volumes, all replies of the drives", "why_tests_cant": "The drive depends on a search in the argument, and the damage (loss of unwritten data of the wrong drive) shows elsewhere.", "anchors": ["kernel/cmd/cmd_eject.c:9-51 eject, fpm_cmd_eject", "kernel/cmd/cmd_mount.c:25-55 mount", "kernel/cmd/cmd_mount.c:92-134 fpm_cmd_mount", "fatfs/fatfs.c:2808-2890 get_ldnumber"]}
{"id": "C135", "title": "Running a program on Unix leaves nothing open or mapped", "statement": "Running a program from a file, on Unix, whether it can be loaded or not, leaves no descriptor open and nothing mapped that was not before, and makes no call to close or munmap with an invalid argument, so that no descriptor of somebody else can be closed.", "quantifier": "all replies of the operating system, all files, all amounts of stack and heap", "why_tests_cant": "Failures of fstat and mmap, and lack of stack or heap, are not provoked by tests, and a descriptor closed twice is seen only when it has been used again.", "anchors": ["unix/loader_unix.c:14-58 fpm_load_arch, fpm_unload_arch", "kernel/fpm_loader.c:65-70 fpm_load", "kernel/fpm_exec.c:137-159 fpm_execv"]}
