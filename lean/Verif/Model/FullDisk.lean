import Verif.Model.Writer
/-
A writer whose file cannot grow beyond a given size (full disk, file size limit). Same source as `Model/Writer`:
src/detail/writer/writer.cpp, src/detail/writer/point.cpp, include/liblas/detail/private_utility.hpp. The header is
already written. The stream is taken as unbuffered: the failure shows in the stream state right after the write that
does not fit. (`std::ofstream` buffers, so that in practice it shows later still.)
-/
namespace LibLAS.FullDisk

/-- `std::ostream::write` on a file that cannot grow beyond `room` bytes: bytes already in the file can be replaced,
what fits of the rest is stored, then `badbit` is set. -/
def write (room : Nat) (s : OStream) (bs : List Byte) : OStream :=
  if s.fail then s
  else if bs.length ≤ max room s.buf.length - s.pos then s.write bs
  else { s with buf := overlay s.buf s.pos (bs.take (max room s.buf.length - s.pos)), fail := true }

/-- `WritePoint` (src/writer.cpp:106-110, src/detail/writer/writer.cpp:90-97, src/detail/writer/point.cpp:89-94):
`write_n` (include/liblas/detail/private_utility.hpp:381-393) looks at the stream before it writes and, in a
release build, not afterwards; the point is counted in any case. Result: writer and what the call reports. -/
def writePoint (room : Nat) (w : Writer) (data : List Byte) : Writer × Outcome Unit :=
  if data = [] then (w, .ub)
  else if w.ofs.fail then (w, .throw .runtimeError)
  else if data.length < w.hdr.dataRecordLength then (w, .ub)
  else ({ w with ofs := write room w.ofs (data.take w.hdr.dataRecordLength), count := w.count + 1 }, .ok ())

/-- Points written one after the other until a call does not return. -/
def writePoints (room : Nat) (w : Writer) : List (List Byte) → Writer × Outcome Unit
  | [] => (w, .ok ())
  | d :: ds =>
    match writePoint room w d with
    | (w, .ok ()) => writePoints room w ds
    | r => r

/-- src/detail/writer/writer.cpp:75-88 and :99-112, the destructor: nothing on a stream that is not good, and no
exception leaves it. -/
def close (room : Nat) (w : Writer) : OStream :=
  if w.ofs.fail then w.ofs else write room (w.ofs.seek 107) (put 4 w.count)

/-- Points are written to an open writer, which is then destroyed (also if a call threw): what the program was told
and the file left behind. -/
def session (room : Nat) (w : Writer) (pts : List (List Byte)) : Outcome Unit × List Byte :=
  let r := writePoints room w pts
  (r.2, (close room r.1).buf)

end LibLAS.FullDisk
