import Verif.Context.Buffer
import Verif.Database.Buffer
import Verif.Database.RewriteOpen
/-
What a decompression context reads of a database and of a clip bound to it. This joins Context/Model.lean (the state machine and the
time) with the bytes of the database (Database/Buffer.lean) and those of its clips (Database/RewriteOpen.lean).
/repo/includes/acl/core/impl/compressed_database.impl.h:40-120
/repo/includes/acl/decompression/impl/decompression.transform.h:520-565
-/
namespace Acl.Context
open Acl.Headers

/-- core/impl/compressed_database.impl.h: the fields a context reads (get_hash, is_valid(false), is_bulk_data_inline, get_num_clips,
get_num_segments) -/
def databaseOf (db : Bytes) : Option Database :=
  (load32 db 4).bind fun hash =>
  (databaseIsValid db true false).bind fun validity =>
  (DbBuffer.isBulkDataInline db).bind fun isInline =>
  (DbBuffer.getNumClips db).bind fun numClips =>
  (DbBuffer.getNumSegments db).bind fun numSegments =>
  some ⟨hash, validity = .ok, isInline, numClips, numSegments⟩

/-- decompression.transform.h:520-565: the pointers of the context once the key frames were found, in the clip or in the bulk data of
the database; `memory` is what is at the bulk data pointers. -/
def poseDbContext (m : Bytes) (memory : Nat → Bytes) (x : TransformSeek) (perTrack : Bool) (r : Interp.Rounding) : Option Transform.Context :=
  Rewrite.openDbContext m (x.bulkMedium.map memory) (x.bulkLow.map memory) x.frame0 x.frame1 perTrack r

end Acl.Context
