import Verif.Model.Film

/-!
# Writing `output.ppm`, /repo/src/integrator.rs:74-81

The file is opened for writing and created if missing, but not truncated; the image is
then written from offset 0 (std: `OpenOptions`, `BufWriter`; write errors are not modelled here).
-/

namespace PT

/-- Writing `data` from offset 0 over a file with content `old` (POSIX `write` without `O_TRUNC`). -/
def overwriteFile {β : Type} (old data : List β) : List β := data ++ old.drop data.length

/-- The content of `output.ppm` after /repo/src/integrator.rs:74-81; `old` is the content before
(empty if the file did not exist). -/
def outputFile {α : Type} [Scalar α] [Libm α] (old : List UInt8) (film : Film α) : List UInt8 :=
  overwriteFile old film.writeImagePpm.toUTF8.toList

end PT
