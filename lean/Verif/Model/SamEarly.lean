import Verif.Model.SamHello
/-!
# The lines that a SAM client is sent before it has a session

The texts of `PendingSamConnection`, `emissary-core/src/sam/pending/connection.rs`. `b64` is I2P's base64.
-/
namespace Emissary.SamHello
open Emissary.SamParser

/-- `SamVersion` as text, sam/parser.rs 122-130. -/
def versionText : Version → Str
  | .v31 => "3.1".toList
  | .v32 => "3.2".toList
  | .v33 => "3.3".toList

/-- The line that is sent, pending/connection.rs 273-277, 395-399 and 431-435. -/
def Reply.text (b64 : Bytes → Str) : Reply → Str
  | .hello v => "HELLO REPLY RESULT=OK VERSION=".toList ++ versionText v ++ "\n".toList
  | .notFound name => "NAMING REPLY RESULT=KEY_NOT_FOUND NAME=".toList ++ name ++ "\n".toList
  | .dest pub priv => "DEST REPLY PUB=".toList ++ b64 pub ++ " PRIV=".toList ++ b64 priv ++ "\n".toList

/-- What a client has been sent. Not in the code: a helper of the model. -/
def Conn.lines (b64 : Bytes → Str) (c : Conn) : List Str := c.sent.map (Reply.text b64)

end Emissary.SamHello
