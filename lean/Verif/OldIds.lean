import Verif.Parser
import Verif.Manager

/-
Model of the conversion of old-style ids (whatutils.py, "Maintenance").
-/
namespace Whatami

/-- whatutils.py:438-472 `oldid2what`. -/
def oldid2what (E : Env) (s : Str) : R What :=
  if c!"out=".isPrefixOf s then
    match parseWith E oldGrammar (partition s '#').2 with
    | .error e => .error e
    | .ok w =>
      if dhas w.conf c!"out" then .error .valueError
      else .ok { w with conf := dset w.conf c!"out" (.str ((partition s '#').1.drop 4)) }
  else parseWith E oldGrammar s

/-- whatutils.py:475-485 `id2whatami4`. -/
def id2whatami4 (E : Env) (s : Str) : R Str :=
  match oldid2what E s with
  | .error .noMatch => .ok s
  | .error e => .error e
  | .ok w =>
    match idD w with
    -- `id()` is inside of the `try`
    | .error .noMatch => .ok s
    | r => r

end Whatami
