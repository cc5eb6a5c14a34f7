import Verif.Model.ArgOpt
/-!
# The formatted output of the library about itself

`printf` for the conversions that occur, and all calls with a fixed format in `src/vita`: `VT_DEBUG_ASSERT`, `VT_ENFORCE`, `VT_DEBUG_PRINTF`, `fprintf`, `printf` and
`vt_file_writefc`.  Calls whose format comes from the caller of the library are not in the list, nor are the numbers of conv.c (`Verif.Model.Conv`).
-/

namespace Vita.Fmt

/-- The types of the arguments, after the default promotions: `char *` (to a text, not null), `int`, `size_t`, `int64_t`. -/
inductive Ty
  | str | int | size | i64
  deriving DecidableEq, Repr

/-- An argument. -/
inductive Arg
  | str (t : List UInt8)
  | int (v : Int)
  | size (n : Nat)
  | i64 (v : Int)

/-- Its type. -/
def Arg.ty : Arg → Ty
  | .str _ => .str
  | .int _ => .int
  | .size _ => .size
  | .i64 _ => .i64

/-- `printf` (ISO C 7.21.6.1): conversions `%s`, `%zu`, `%d`, `%i` and `%%`, field widths `5` and `*`.  Undefined if an argument is missing or has another type
than the conversion; a value that is not negative may have the signed type that corresponds to `size_t`.  Arguments in excess are ignored. -/
def printf : List Char → List Arg → Out (List UInt8)
  | [], _ => .ok []
  | '%' :: 's' :: f, .str t :: as => do
    let r ← printf f as
    .ok (t ++ r)
  | '%' :: '5' :: 's' :: f, .str t :: as => do
    let r ← printf f as
    .ok (ArgOpt.padded 5 t ++ r)
  | '%' :: '*' :: 's' :: f, .int w :: .str t :: as => do
    let r ← printf f as
    .ok (ArgOpt.padded w t ++ r)
  | '%' :: 'z' :: 'u' :: f, .size n :: as => do
    let r ← printf f as
    .ok (Conv.printU 20 n ++ r)
  | '%' :: 'z' :: 'u' :: f, .i64 v :: as => do
    if v < 0 then .ub else
      let r ← printf f as
      .ok (Conv.printU 20 v.toNat ++ r)
  | '%' :: '*' :: 'z' :: 'u' :: f, .int w :: .size n :: as => do
    let r ← printf f as
    .ok (ArgOpt.padded w (Conv.printU 20 n) ++ r)
  | '%' :: 'd' :: f, .int v :: as => do
    let r ← printf f as
    .ok (Conv.printD v ++ r)
  | '%' :: 'i' :: f, .int v :: as => do
    let r ← printf f as
    .ok (Conv.printD v ++ r)
  | '%' :: '%' :: f, as => do
    let r ← printf f as
    .ok (37 :: r)
  | '%' :: _, _ => .ub
  | c :: f, as => do
    let r ← printf f as
    .ok (UInt8.ofNat c.toNat :: r)

/-- A call: where it is, its format and the types of the arguments after it. -/
structure Site where
  file : String
  line : Nat
  fmt : String
  args : List Ty

/-- The characters of an ASCII text. -/
def ascii (s : String) : List Char := s.toUTF8.data.toList.map fun b => Char.ofNat b.toNat

/-- The calls whose whole message is a text on a line of its own, mostly a status: file and lines. -/
def plainLines : List (String × List Nat) := [
  ("allocator/mallocator.c", [29, 30, 59, 60, 61, 84, 85, 86, 87, 115, 116, 117, 179, 180, 181, 200, 201, 202, 232, 233, 234, 247, 248, 261, 262, 263]),
  ("container/common.c", [15, 30, 31, 38, 39, 46, 47, 54, 55, 62, 63, 69, 70, 77, 78, 92, 93, 94, 109, 110, 126, 127, 143, 144, 155, 156, 168, 169, 170]),
  ("container/plist.c", [5, 22, 23, 41, 42, 72, 73, 74, 87, 88, 107, 108, 109, 127, 128, 129, 155, 156, 164, 165, 166, 181, 182, 196, 197, 198, 207, 208, 209,
    222, 223, 233, 234, 246, 247, 248, 270, 271, 272, 273, 282, 283, 284, 298, 299, 315, 316, 332, 333, 340, 341, 342]),
  ("container/span.c", [5, 6, 7, 18, 19, 20, 21, 65]),
  ("container/str.c", [8, 23, 37, 57, 68, 69, 91, 92, 99, 119, 120, 143, 144, 158, 159, 181, 182, 193, 194, 195, 212, 213, 214, 232, 233, 234, 241, 242, 243,
    273, 274, 291, 292, 293, 294, 317, 318, 319, 326, 327, 328, 334, 344, 345, 346, 347, 366, 367, 368, 399, 400, 401, 416, 433, 451, 452,
    453, 454, 477, 478, 479, 480, 494, 495, 496, 497, 511, 512, 513, 539, 540, 541, 568, 569, 570, 596, 597, 598, 608, 609, 610, 648, 649,
    650, 651, 681, 682, 683, 684, 709, 710, 711, 712, 743, 744, 745, 746, 751, 771, 772, 805, 806, 839, 840, 841, 899, 900, 901, 902, 909,
    910, 911, 915, 929, 930, 931, 944, 993, 994, 995, 1031, 1032, 1033, 1055, 1056, 1086, 1087, 1088, 1132, 1133, 1134, 1190, 1191, 1203,
    1204, 1205, 1206, 1207, 1214, 1215, 1227, 1228, 1229, 1241, 1242, 1243, 1256, 1257, 1258, 1268, 1269, 1285, 1286, 1300, 1301, 1313,
    1314, 1326, 1327, 1339, 1340, 1341, 1354, 1355, 1362, 1363, 1370, 1371, 1387, 1388, 1389, 1397, 1430, 1431, 1432, 1440]),
  ("container/vec.c", [5, 6, 23, 24, 42, 43, 73, 74, 92, 93, 101, 102, 103, 116, 117, 118, 136, 137, 138, 164, 165, 166, 196, 197, 207, 208, 238, 239, 240,
    272, 273, 304, 305, 306, 349, 350, 351, 373, 374, 375, 406, 407, 414, 415, 422, 423, 431, 432, 433]),
  ("core/conv.c", [9, 38, 41, 44]),
  ("network/sockets.c", [28]),
  ("system/fileio.c", [5, 22, 31, 58, 70, 79, 106, 107, 108, 125, 152, 158, 164, 170, 176, 182, 188, 194, 200, 201, 224, 225, 251, 252]),
  ("system/path.c", [33, 41, 50, 59, 91, 141, 207, 223, 263, 287, 303, 312, 326, 368, 387, 439, 452, 453, 470, 489, 503, 519, 531, 560]),
  ("time/datetime.c", [17, 18, 28, 29, 71, 72, 78, 79, 85, 86, 92, 93, 115, 128, 141, 207, 215, 223, 350, 351, 352, 367, 368, 393, 394]),
  ("util/argopt.c", [8, 9, 10, 11, 94, 95, 107, 118]),
  ("util/log.c", [15, 29, 36])]

/-- The table of the allocator, mallocator.c:139-169. -/
def statsSite : Site := ⟨"allocator/mallocator.c", 160,
  "|-------------------------|\n" ++
  "|    MALLOCATOR STATS     |\n" ++
  "|-------------------------|\n" ++
  "| N   ALLOCS | %*zu |\n" ++
  "| N REALLOCS | %*zu |\n" ++
  "| N    FREES | %*zu |\n" ++
  "|-------------------------|\n" ++
  "| B T.ALLOCD | %*zu |\n" ++
  "| B C.ALLOCD | %*zu |\n" ++
  "| B    FREED | %*zu |\n" ++
  "|-------------------------|\n" ++
  "| (N) - COUNT             |\n" ++
  "| (B) - BYTES             |\n" ++
  "| (T) - TOTAL             |\n" ++
  "| (C) - CURRENT           |\n" ++
  "|-------------------------|\n",
  [.int, .size, .int, .size, .int, .size, .int, .size, .int, .size, .int, .size]⟩

/-- All other calls. -/
def otherSites : List Site := [
  ⟨"allocator/mallocator.c", 77, "%s:%s:%d: %zu bytes allocated\n", [.str, .str, .size, .size]⟩,
  ⟨"allocator/mallocator.c", 108, "%s:%s:%d: %zu bytes reallocated (old size: %d)\n", [.str, .str, .size, .size, .size]⟩,
  ⟨"allocator/mallocator.c", 128, "%s:%s:%d: %zu bytes freed (left: %zu)\n", [.str, .str, .size, .size, .size]⟩,
  statsSite,
  ⟨"container/common.c", 79, "%s: Out of bounds memory access at %zu, but length is %zu!\n", [.str, .size, .size]⟩,
  ⟨"container/common.c", 95, "%s: Out of bounds memory access at %zu, but length is %zu!\n", [.str, .size, .size]⟩,
  ⟨"container/plist.c", 130, "%s: Out of bounds memory access at %zu, but length is %zu!\n", [.str, .size, .size]⟩,
  ⟨"container/plist.c", 167, "%s: Out of bounds memory access at %zu, but length is %zu!\n", [.str, .size, .size]⟩,
  ⟨"container/plist.c", 183, "%s: Out of bounds memory access at %zu, but length is %zu!\n", [.str, .size, .size]⟩,
  ⟨"container/plist.c", 249, "%s: Out of bounds memory access at %zu, but length is %zu!\n", [.str, .size, .size]⟩,
  ⟨"container/span.c", 35, "%s: Out of bounds memory access at %zu, but length is %zu!\n", [.str, .size, .size]⟩,
  ⟨"container/span.c", 66, "%s: Out of bounds memory access at %zu, but length is %zu!\n", [.str, .size, .size]⟩,
  ⟨"container/str.c", 160, "%s: Cannot modify a viewable-only object!\n", [.str]⟩,
  ⟨"container/str.c", 196, "%s: Cannot modify a viewable-only object!\n", [.str]⟩,
  ⟨"container/str.c", 215, "%s: Cannot modify a viewable-only object!\n", [.str]⟩,
  ⟨"container/str.c", 244, "%s: Assigning at %zu, but vt_str_t length is %zu!\n", [.str, .size, .size]⟩,
  ⟨"container/str.c", 254, "%s: Supplied string length is %zu, but available space is %zu!\n", [.str, .size, .size]⟩,
  ⟨"container/str.c", 275, "%s: Assigning at %zu, but vt_str_t length is %zu!\n", [.str, .size, .size]⟩,
  ⟨"container/str.c", 297, "%s: Supplied string length is %zu, but available space is %zu!\n", [.str, .size, .size]⟩,
  ⟨"container/str.c", 369, "%s: Inserts at %zu, but vt_str_t length is %zu!\n", [.str, .size, .size]⟩,
  ⟨"container/str.c", 514, "%s: Start from %zu, but vt_str_t length is %zu!\n", [.str, .size, .size]⟩,
  ⟨"container/vec.c", 241, "%s: Out of bounds memory access at %zu, but length is %zu!\n", [.str, .size, .size]⟩,
  ⟨"container/vec.c", 274, "%s: Out of bounds memory access at %zu, but length is %zu!\n", [.str, .size, .size]⟩,
  ⟨"container/vec.c", 307, "%s: Out of bounds memory access at %zu, but length is %zu!\n", [.str, .size, .size]⟩,
  ⟨"container/vec.c", 352, "%s: Out of bounds memory access at %zu, but length is %zu!\n", [.str, .size, .size]⟩,
  ⟨"core/conv.c", 13, "%s: Must be digits only, not \"<%s>\".\n", [.str, .str]⟩,
  ⟨"core/core.c", 18, "%s %s:%s:%zu: %s\n", [.str, .str, .str, .size, .str]⟩,
  ⟨"core/core.c", 31, "%s %s:%s:%zu: %s\n", [.str, .str, .str, .size, .str]⟩,
  ⟨"core/core.c", 44, "%s %s:%s:%zu: %s\n", [.str, .str, .str, .size, .str]⟩,
  ⟨"network/sockets.c", 7, "%s: Failed to initialize sockets!\n", [.str]⟩,
  ⟨"network/sockets.c", 18, "%s: Failed to quit sockets!\n", [.str]⟩,
  ⟨"network/sockets.c", 39, "%s: Failed to create a server socket!\n", [.str]⟩,
  ⟨"network/sockets.c", 46, "%s: Failed to set socket options!\n", [.str]⟩,
  ⟨"network/sockets.c", 58, "%s: Failed to bind the socket!\n", [.str]⟩,
  ⟨"network/sockets.c", 64, "%s: Error listening for connections!\n", [.str]⟩,
  ⟨"network/sockets.c", 75, "%s: Failed to create a client socket!\n", [.str]⟩,
  ⟨"network/sockets.c", 87, "%s: Failed to connect to server!\n", [.str]⟩,
  ⟨"network/sockets.c", 104, "%s: Error accepting connections!\n", [.str]⟩,
  ⟨"network/sockets.c", 114, "%s: Failed to close the socket!\n", [.str]⟩,
  ⟨"network/sockets.c", 119, "%s: Failed to close the socket!\n", [.str]⟩,
  ⟨"network/sockets.c", 133, "%s: Error sending data packet!\n", [.str]⟩,
  ⟨"network/sockets.c", 152, "%s: Error sending data packet!\n", [.str]⟩,
  ⟨"network/sockets.c", 165, "%s: Error receiving data packet!\n", [.str]⟩,
  ⟨"network/sockets.c", 182, "%s: Error receiving data packet!\n", [.str]⟩,
  ⟨"system/fileio.c", 15, "%s: Failed to open <%s>!\n", [.str, .str]⟩,
  ⟨"system/fileio.c", 40, "%s: Failed to read file data! Inconsistent read (%zu) != file size (%zu) bytes\n", [.str, .size, .i64]⟩,
  ⟨"system/fileio.c", 63, "%s: Failed to open <%s>!\n", [.str, .str]⟩,
  ⟨"system/fileio.c", 88, "%s: Failed to read file data! Inconsistent read (%zu) != file size (%zu) bytes\n", [.str, .size, .i64]⟩,
  ⟨"system/fileio.c", 118, "%s: Failed to open <%s>!\n", [.str, .str]⟩,
  ⟨"system/fileio.c", 134, "%s: Failed to read file data! Inconsistent read (%zu) != file size (%zu) bytes\n", [.str, .size, .size]⟩,
  ⟨"system/fileio.c", 153, "%s", [.str]⟩,
  ⟨"system/fileio.c", 159, "%s", [.str]⟩,
  ⟨"system/fileio.c", 165, "%s", [.str]⟩,
  ⟨"system/fileio.c", 171, "%s", [.str]⟩,
  ⟨"system/fileio.c", 177, "%s", [.str]⟩,
  ⟨"system/fileio.c", 183, "%s", [.str]⟩,
  ⟨"system/fileio.c", 189, "%s", [.str]⟩,
  ⟨"system/fileio.c", 195, "%s", [.str]⟩,
  ⟨"system/fileio.c", 206, "%s: Failed to open <%s>!\n", [.str, .str]⟩,
  ⟨"system/fileio.c", 230, "%s: Failed to open <%s>!\n", [.str, .str]⟩,
  ⟨"system/fileio.c", 241, "\n", []⟩,
  ⟨"system/fileio.c", 257, "%s: Failed to open <%s>!\n", [.str, .str]⟩,
  ⟨"system/fileio.c", 269, "\n", []⟩,
  ⟨"system/path.c", 95, "%s: Path does not exist <%s>!\n", [.str, .str]⟩,
  ⟨"system/path.c", 102, "%s: Failed read the directory <%s>!\n", [.str, .str]⟩,
  ⟨"system/path.c", 133, "%s: Failed to close the directory <%s>!\n", [.str, .str]⟩,
  ⟨"system/path.c", 145, "%s: Path does not exist <%s>!\n", [.str, .str]⟩,
  ⟨"system/path.c", 152, "%s: Failed read the directory %s!\n", [.str, .str]⟩,
  ⟨"system/path.c", 200, "%s: Failed to close the directory <%s>!\n", [.str, .str]⟩,
  ⟨"system/path.c", 372, "%s: Path does not exist <%s>\n", [.str, .str]⟩,
  ⟨"system/path.c", 391, "%s: Path does not exist <%s>\n", [.str, .str]⟩,
  ⟨"system/path.c", 443, "%s: Path does not exist <%s>\n", [.str, .str]⟩,
  ⟨"system/path.c", 457, "%s: Path does not exist <%s>\n", [.str, .str]⟩,
  ⟨"time/datetime.c", 116, "Invalid timestamp format! Expected '%s', but recieved '%s'.\n", [.str, .str]⟩,
  ⟨"time/datetime.c", 129, "Invalid timestamp format! Expected '%s', but recieved '%s'.\n", [.str, .str]⟩,
  ⟨"time/datetime.c", 142, "Invalid timestamp format! Expected '%s', but recieved '%s'.\n", [.str, .str]⟩,
  ⟨"time/datetime.c", 156, "%s: Invalid datetime format.\n", []⟩,
  ⟨"time/datetime.c", 167, "%s: Invalid datetime format.\n", []⟩,
  ⟨"util/argopt.c", 75, "Unrecognized option: %s!\n", [.str]⟩,
  ⟨"util/argopt.c", 112, "%*s %*s %s\n", [.int, .str, .int, .str, .str]⟩,
  ⟨"util/argopt.c", 114, "%*s %*s %s\n", [.int, .str, .int, .str, .str]⟩,
  ⟨"util/argopt.c", 130, "optionLong cannot be NULL!\n", []⟩,
  ⟨"util/argopt.c", 131, "optionShort cannot be NULL!\n", []⟩,
  ⟨"util/argopt.c", 132, "optionValue cannot be NULL!\n", []⟩,
  ⟨"util/argopt.c", 133, "optionShort=<%s> cannot be longer than 3 characters!\n", [.str]⟩,
  ⟨"util/argopt.c", 134, "optionType specified is invalid!\n", []⟩,
  ⟨"util/debug.c", 32, "%s %s [%s] %s:%s:%zu: ", [.str, .str, .str, .str, .str, .size]⟩,
  ⟨"util/debug.c", 34, "\n", []⟩,
  ⟨"util/debug.c", 64, "%s %s ", [.str, .str]⟩,
  ⟨"util/log.c", 50, "%s:%i: Failed to open a file <%s>!\n", [.str, .size, .str]⟩,
  ⟨"util/log.c", 56, "%s %5s %s:%zu: ", [.str, .str, .str, .size]⟩,
  ⟨"util/log.c", 58, "%s %5s [%s] %s:%zu: ", [.str, .str, .str, .str, .size]⟩,
  ⟨"util/log.c", 63, "\n", []⟩]

/-- All calls. -/
def sites : List Site := (plainLines.map fun x => x.2.map fun l => ⟨x.1, l, "%s\n", [.str]⟩).flatten ++ otherSites

end Vita.Fmt
