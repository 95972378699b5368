import Verif.Model.CliHandlers

/-!
# Specification vocabulary for the command line
-/

namespace TinyDIP.Cli

/-- White space and quotes, listed. -/
def Junk (c : Char) : Prop :=
  c ∈ [' ', '\t', '\n', '\x0b', '\x0c', '\r', '"', '\'']

/-- `t` is the name meant by the text `s`: `s` without white space and quotes at both ends. -/
def Means (s t : Str) : Prop :=
  (∃ pre suf, s = pre ++ t ++ suf ∧ (∀ c ∈ pre, Junk c) ∧ ∀ c ∈ suf, Junk c) ∧
    (∀ c, t.head? = some c → ¬ Junk c) ∧ ∀ c, t.getLast? = some c → ¬ Junk c

/-- Two texts denote the same variable. -/
def SameVar (s t : Str) : Prop := ∃ n, Means s n ∧ Means t n

/-- An image type the commands support: pixels are numbers or one of the other scalar types. -/
def ImageTy (t : Ty) : Prop := (∃ n, t = .image (.num n)) ∨ ∃ n, t = .image (.scalar n)

/-- What the data commands accept: images and containers of numbers. -/
def DataTy (t : Ty) : Prop := ImageTy t ∨ ∃ k n, t = .cont k (.num n)

/-- Containers whose elements commands can reach: of numbers, or vectors, deques and lists of images. -/
def ContainerTy (k : Kind) (e : Ty) : Prop := (∃ n, e = .num n) ∨ ((∀ n, k ≠ .array n) ∧ ImageTy e)

/-- A policy word. -/
def PolicyWord (s : Str) : Prop := s ∈ ["seq".toList, "par".toList, "par_unseq".toList, "unseq".toList]

instance (s : Str) : Decidable (PolicyWord s) := by unfold PolicyWord; infer_instance

/-- The words of an argument list that are not policy words; command handlers count positions among
these. -/
def plainWords (args : List Str) : List Str := args.filter fun a => ¬ PolicyWord a

/-- The file system is as before and every variable other than the one meant by `d` is as
before. -/
def OnlyVar {P F : Type} (w w' : World P F) (d : Str) : Prop :=
  w'.fs = w.fs ∧ ∀ m, ¬ SameVar m d → w'.ws.retrieveAny m = w.ws.retrieveAny m

/-- Between `w` and `w'` at most the file at the path that `o` means is written. -/
def OnlyFile {P F : Type} (io : FileIO P F) (w w' : World P F) (o : Str) : Prop :=
  w'.ws = w.ws ∧ (w'.fs = w.fs ∨ ∃ p v, Means o p ∧ io.save w.fs p v = some w'.fs)

/-- Executing `cmd pol... $a $b sub...` acts as the operation `f`: when variable `a` holds `v` and
`f v = some r`, variable `b` is set to `r` and nothing else happens; when `f v` is undefined the
command fails and changes nothing. -/
def ActsAs {P F : Type} (reg : Registry (World P F)) (cmd : Str) (pol sub : List Str)
    (f : Val P → Option (Val P)) : Prop :=
  ∀ w a b v, w.ws.retrieveAny a = some v →
    ∃ rep, rep ≠ Registry.Report.terminated ∧
      reg.execute w cmd (pol ++ ['$' :: a, '$' :: b] ++ sub) =
        (match f v with
          | some r => { w with ws := w.ws.put b r }
          | none => w, rep)

/-- The operation of a transform command: `core`, undefined where the type of the argument or of the
result is not accepted. -/
def checkedOp {P : Type} (check : Ty → Bool) (core : Val P → Option (Val P)) (v : Val P) :
    Option (Val P) :=
  if check v.ty then (core v).filter fun r => check r.ty else none

/-- No variable has one of the temporary names `__tc_in_i`, `__tc_out_i`. -/
def NoTemps {P F : Type} (w : World P F) : Prop :=
  ∀ i, w.ws.retrieveAny ("__tc_in_".toList ++ Nat.toDigits 10 i) = none ∧
    w.ws.retrieveAny ("__tc_out_".toList ++ Nat.toDigits 10 i) = none

/-- A file name that is a non-empty stem followed by an extension. -/
def StemExt (f stem ext : Str) : Prop := f = stem ++ ext ∧ stem ≠ [] ∧ ∃ e, ext = '.' :: e ∧ '.' ∉ e

/-- The extensions a workspace is loaded from. -/
def LoadExt (ext : Str) : Prop :=
  ext ∈ [".bmp".toList, ".dbmp".toList, ".hsv".toList, ".csv".toList, ".ppm".toList]

/-- The variable `p` is saved to the file with extension `ext`. -/
def SavedAs {P : Type} (p : Str × Val P) (ext : Str) : Prop :=
  (p.2.ty = .image (.scalar 10) ∧ ext = ".bmp".toList) ∨ (p.2.ty = .image (.num .double) ∧ ext = ".dbmp".toList) ∨
    (p.2.ty = .image (.scalar 11) ∧ ext = ".hsv".toList)

end TinyDIP.Cli
