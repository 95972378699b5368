import Verif.Model.TypeName
import Verif.Spec.TypeName
import Mathlib.Tactic.Set

/-!
# Property theorems: names of types shown to the user (C210)

Full statement of C210: the name of a type in the list of variables and in error messages is the name the compiler gives
it.

What is missing: with gcc, names that contain a semicolon (types inside function templates) are cut there.
-/

namespace TinyDIP.Props

open TinyDIP Cli

/-! ## C210 -/

theorem firstPlace_char (c : Char) (t r : Str) (h : c ∉ t) : firstPlace [c] (t ++ c :: r) = some t.length := by
  induction t with
  | nil => simp [firstPlace, List.isPrefixOf]
  | cons a t ih =>
    rw [List.mem_cons, not_or] at h
    rw [List.cons_append, firstPlace, if_neg (by simp [List.isPrefixOf, h.1]), ih h.2]
    rfl

theorem lastPlace_end (pat t : Str) (h : lastPlace pat pat = some 0) : lastPlace pat (t ++ pat) = some t.length := by
  induction t with
  | nil => exact h
  | cons a t ih => rw [List.cons_append, lastPlace, ih]; rfl

theorem svSubstr_mid (a t r : Str) (hfit : (a ++ (t ++ r)).length < 2 ^ 64) :
    svSubstr (a ++ (t ++ r)) a.length (wsub (a.length + t.length) a.length) = .ok t := by
  have h2 : wsub (a.length + t.length) a.length = t.length := by
    unfold wsub W
    simp only [List.length_append] at hfit
    omega
  unfold svSubstr
  rw [h2, if_neg (by simp), List.drop_left, List.take_left]

theorem first_clang (x : Str) : firstPlace "T = ".toList ("std::string_view get_type_name() [T = ".toList ++ x) = some 34 := by
  rfl

theorem first_gcc (x : Str) : firstPlace "with T = ".toList
    ("constexpr std::string_view get_type_name() [with T = ".toList ++ x) = some 44 := by
  rfl

theorem first_msvc (x : Str) : firstPlace "get_type_name<".toList
    ("class std::basic_string_view<char,struct std::char_traits<char> > __cdecl get_type_name<".toList ++ x) = some 74 := by
  rfl

/-- clang and Visual C++: the name of every type. -/
theorem C210_clang_msvc (t : Str) (hfit : t.length < 2 ^ 63) :
    typeNameClang (clangText t) = .ok t ∧ typeNameMsvc (msvcText t) = .ok t := by
  constructor
  · have hlen : (clangText t).length = 38 + (t.length + 1) := by
      unfold clangText; rw [List.length_append, List.length_append]; rfl
    have hs : svFind (clangText t) "T = ".toList 0 = 34 := by
      unfold svFind
      rw [if_pos (Nat.zero_le _), List.drop_zero]
      unfold clangText
      rw [first_clang]
    have he : svRfind (clangText t) [']'] = 38 + t.length := by
      unfold svRfind clangText
      rw [← List.append_assoc, lastPlace_end _ _ (by rfl), List.length_append]
      rfl
    unfold typeNameClang
    simp only [hs, he]
    have := svSubstr_mid "std::string_view get_type_name() [T = ".toList t [']'] (by unfold clangText at hlen; rw [hlen]; omega)
    exact this
  · have hlen : (msvcText t).length = 88 + (t.length + 7) := by
      unfold msvcText; rw [List.length_append, List.length_append]; rfl
    have hs : svFind (msvcText t) "get_type_name<".toList 0 = 74 := by
      unfold svFind
      rw [if_pos (Nat.zero_le _), List.drop_zero]
      unfold msvcText
      rw [first_msvc]
    have he : svRfind (msvcText t) ">(void)".toList = 88 + t.length := by
      unfold svRfind msvcText
      rw [← List.append_assoc, lastPlace_end _ _ (by rfl), List.length_append]
      rfl
    unfold typeNameMsvc
    simp only [hs, he]
    have := svSubstr_mid "class std::basic_string_view<char,struct std::char_traits<char> > __cdecl get_type_name<".toList t
      ">(void)".toList (by unfold msvcText at hlen; rw [hlen]; omega)
    exact this

example := C210_clang_msvc "TinyDIP::Image<double>".toList (by decide)

theorem gcc_cut (t r : Str) (hsemi : ';' ∉ t)
    (hfit : ("constexpr std::string_view get_type_name() [with T = ".toList ++ (t ++ ';' :: r)).length < 2 ^ 63) :
    typeNameGcc ("constexpr std::string_view get_type_name() [with T = ".toList ++ (t ++ ';' :: r)) = .ok t := by
  have hlen : ("constexpr std::string_view get_type_name() [with T = ".toList ++ (t ++ ';' :: r)).length =
    53 + (t.length + (r.length + 1)) := by
    rw [List.length_append, List.length_append, List.length_cons]; rfl
  set name := "constexpr std::string_view get_type_name() [with T = ".toList ++ (t ++ ';' :: r) with hname
  have hs : svFind name "with T = ".toList 0 = 44 := by
    unfold svFind
    rw [if_pos (Nat.zero_le _), List.drop_zero, hname, first_gcc]
  have hsemi : svFind name [';'] 53 = 53 + t.length := by
    unfold svFind
    rw [if_pos (by omega)]
    have : name.drop 53 = t ++ ';' :: r := rfl
    rw [this, firstPlace_char _ _ _ hsemi]
  have w : wadd 44 9 = 53 := rfl
  unfold typeNameGcc
  simp only [hs, w, hsemi]
  rw [if_pos (by unfold npos; omega)]
  exact svSubstr_mid "constexpr std::string_view get_type_name() [with T = ".toList t (';' :: r) (by rw [← hname]; omega)

/-- gcc: the name of every type without a semicolon in its name.
Missing: other names, see `C210_gcc_violation`. -/
theorem C210_gcc_partial (t : Str) (hsemi : ';' ∉ t) (hfit : t.length < 2 ^ 62) : typeNameGcc (gccText t) = .ok t := by
  have e : gccText t = "constexpr std::string_view get_type_name() [with T = ".toList ++
    (t ++ ';' :: " std::string_view = std::basic_string_view<char>]".toList) := rfl
  rw [e]
  exact gcc_cut t _ hsemi (by
    rw [List.length_append, List.length_append]
    change 53 + (t.length + 50) < _
    omega)

example := C210_gcc_partial "TinyDIP::Image<double>".toList (by decide) (by decide)

/-- gcc: of a name with a semicolon only the part before it is shown. -/
theorem C210_gcc_violation (t u : Str) (hsemi : ';' ∉ t) (hfit : (t ++ ';' :: u).length < 2 ^ 62) :
    typeNameGcc (gccText (t ++ ';' :: u)) = .ok t := by
  have e : gccText (t ++ ';' :: u) = "constexpr std::string_view get_type_name() [with T = ".toList ++
    (t ++ ';' :: (u ++ "; std::string_view = std::basic_string_view<char>]".toList)) := by
    unfold gccText; rw [List.append_assoc]; rfl
  rw [e]
  exact gcc_cut t _ hsemi (by
    rw [List.length_append, List.length_cons] at hfit
    rw [List.length_append, List.length_append, List.length_cons, List.length_append]
    change 53 + (t.length + (u.length + 50 + 1)) < _
    omega)

example := C210_gcc_violation "f<A, B>::pair [with A = int".toList " B = double]".toList (by decide) (by decide)

end TinyDIP.Props
