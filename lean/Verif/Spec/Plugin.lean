import Verif.Model.Plugin

/-!
# Specification vocabulary for plugins
-/

namespace TinyDIP.Cli.Plug

open TinyDIP.Cli

variable {σ : Type}

/-- The file has a name like `x.so`, `x.dll` or `x.dylib`. -/
def ModuleName (file : Str) : Prop :=
  ∃ stem, stem ≠ [] ∧ (file = stem ++ ".so".toList ∨ file = stem ++ ".dll".toList ∨ file = stem ++ ".dylib".toList)

/-- The file is a module that can be loaded. -/
def Module.Usable (m : Module σ) : Prop := ModuleName m.file ∧ m.opens = true ∧ m.hasSymbol = true

/-- `cs` registers `x` under the name `n`, and nothing under that name before. -/
def FirstUnder {β : Type} (cs : List (Str × β)) (n : Str) (x : β) : Prop :=
  ∃ a b, cs = a ++ (n, x) :: b ∧ ∀ c ∈ a, c.1 ≠ n

/-- The command registered under a name, without its owner. -/
def Host.command (h : Host σ) (n : Str) : Option (CmdInfo σ) := (h.table.find n).map (·.info)

/-- How many library objects hold the reference. -/
def Host.holders (h : Host σ) (r : Nat) : Nat := h.libs.objs.countP fun l => l.handle = some r

/-- No module of the directory throws after having registered a command. -/
def Dir.Tidy : Dir σ → Prop
  | .entries l => ∀ m ∈ l, m.ending = .returned ∨ m.commands = []
  | _ => True

/-- The commands of the program, by the positions of their source and destination variables among the arguments. -/
def programCommands : List (List String × Option Nat × Option Nat) :=
  [(["gaussian_figure_2d", "grid", "ones", "rand", "read", "zeros"], none, some 1),
    (["info", "print", "write"], some 0, none),
    (["append_element", "count"], some 0, some 2),
    (["bicubic_resize", "create_container", "dct2", "dct3", "erase_element", "get_element", "getBplane", "getGplane",
      "getRplane", "get_sift_potential_keypoint", "hsv2rgb", "idct2", "im2double", "im2uint8", "lanczos_resample",
      "multiply", "normalize", "rotate", "sift_generate_octave", "subimage", "to_complex"], some 0, some 1),
    (["batch_add_zeros", "constructRGB", "copy", "help", "load_plugins", "load_workspace", "remove", "rename",
      "save_workspace", "test", "transform_container", "vars"], none, none)]

/-- The commands of the shipped plugins, in the same way. -/
def shippedCommands : List (List String × Option Nat × Option Nat) :=
  [(["abs", "max", "min", "sum"], some 0, some 1), (["subtract", "add"], some 0, some 2), (["replace"], some 0, some 3)]

end TinyDIP.Cli.Plug
