import Verif.Model.Cli

/-!
# Specification: the texts of compilers for the signature of `get_type_name<T>`
-/

namespace TinyDIP.Cli

/-- `__PRETTY_FUNCTION__` of clang for the type with the name `t`. -/
def clangText (t : Str) : Str := "std::string_view get_type_name() [T = ".toList ++ (t ++ [']'])

/-- `__PRETTY_FUNCTION__` of gcc for the type with the name `t`. -/
def gccText (t : Str) : Str :=
  "constexpr std::string_view get_type_name() [with T = ".toList ++
    (t ++ "; std::string_view = std::basic_string_view<char>]".toList)

/-- `__FUNCSIG__` of Visual C++ for the type with the name `t`. -/
def msvcText (t : Str) : Str :=
  "class std::basic_string_view<char,struct std::char_traits<char> > __cdecl get_type_name<".toList ++
    (t ++ ">(void)".toList)

end TinyDIP.Cli
