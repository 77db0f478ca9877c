import Verif.Model.Json
/-
examples/common/launcher.py: an example that saves its commands and runs them again.
-/

namespace Verif

/-- `_ExampleLauncher.render` in the mode `commands` (examples/common/launcher.py:66-95), with
`--command_file_cycle` if `cycle`: the session of the example `base` is saved, the registry of objects emptied, the file
loaded and the queue run by the backend `P2` in the same process. `old` is what the file held
before. The directory of the file, the messages (the commands are printed, which works:
`saved_queue_prints`) and `plt.show` are left out. `none` means that saving does
not end. -/
def launcherCommands (P P2 : Prog) (ij : Codec) (fuel : Nat) (w : World) (base : String)
    (old : File) (cycle : Bool) : Option (World × File × Except Err Unit) :=
  match gspSave P ij fuel w (base ++ ".commands.json") none old with
  | none => none
  | some (w1, f, .error e) => some (w1, f, .error e)
  | some (w1, f, .ok ()) =>
    if cycle = false then some (w1, f, .ok ())
    else
      let w2 := { w1 with objects := [] }
      match loadQueue w2 f none with
      | (w3, .error e) => some (w3, f, .error e)
      | (w3, .ok ()) =>
        let (w4, res) := runQueue P2 w3 (pickQueue w2 none).2
        some (w4, f, res)

end Verif
