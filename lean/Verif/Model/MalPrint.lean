import Verif.Model.Mallocator
import Verif.Model.Conv
/-!
# Model of `vt_mallocator_print_stats`, src/vita/allocator/mallocator.c

The result is the text written to the standard output.
-/

namespace Vita
namespace Mal

/-- `printf("%*zu", width, n)`: at least `width` characters, filled up with spaces on the left. -/
def padZu (width n : Nat) : List UInt8 :=
  let t := Conv.printU 20 n
  List.replicate (width - t.length) 32 ++ t

/-- A text of the format at mallocator.c:142-159. -/
def lit (s : String) : List UInt8 := s.toUTF8.data.toList

/-- `vt_mallocator_print_stats`, mallocator.c:139-169. -/
def printStats (s : Stats) : List UInt8 :=
  lit "|-------------------------|\n" ++
  lit "|    MALLOCATOR STATS     |\n" ++
  lit "|-------------------------|\n" ++
  lit "| N   ALLOCS | " ++ padZu 10 s.allocs ++ lit " |\n" ++
  lit "| N REALLOCS | " ++ padZu 10 s.reallocs ++ lit " |\n" ++
  lit "| N    FREES | " ++ padZu 10 s.frees ++ lit " |\n" ++
  lit "|-------------------------|\n" ++
  lit "| B T.ALLOCD | " ++ padZu 10 (wadd s.bytesAllocated s.bytesFreed) ++ lit " |\n" ++
  lit "| B C.ALLOCD | " ++ padZu 10 s.bytesAllocated ++ lit " |\n" ++
  lit "| B    FREED | " ++ padZu 10 s.bytesFreed ++ lit " |\n" ++
  lit "|-------------------------|\n" ++
  lit "| (N) - COUNT             |\n" ++
  lit "| (B) - BYTES             |\n" ++
  lit "| (T) - TOTAL             |\n" ++
  lit "| (C) - CURRENT           |\n" ++
  lit "|-------------------------|\n"

end Mal
end Vita
