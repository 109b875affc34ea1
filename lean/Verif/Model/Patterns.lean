import Verif.Model.Regex
/-!
# The patterns of the code base

Generated by `/verif/tools/gen_patterns.py` from the verbatim pattern strings in `/repo`.  Each definition is the syntax
tree; each `_src` theorem checks in the kernel that the verbatim source text compiles to it (and to its named groups).
-/
namespace Oelint

/-- `/repo/oelint_parser/parser.py:31` `__regex_var` -/
def reVar : Pattern :=
  ⟨(.seq .bos (.seq (.grp 1 (.seq (.grp 2 (.alt (.cls false [.range 'A' 'Z', .range '0' '9', .range 'a' 'z', .one '_', .one '.', .one '-']) (.alt (.lit c!"$") (.alt (.lit c!"{") (.alt (.lit c!"}") (.lit c!":")))))) (.star false (.grp 2 (.alt (.cls false [.range 'A' 'Z', .range '0' '9', .range 'a' 'z', .one '_', .one '.', .one '-']) (.alt (.lit c!"$") (.alt (.lit c!"{") (.alt (.lit c!"}") (.lit c!":"))))))))) (.seq (.grp 3 (.seq (.star true (.grp 4 (.alt (.cls false [.space]) (.lit c!"\t")))) (.seq (.star true (.grp 5 (.alt (.lit c!"+") (.alt (.lit c!"?") (.alt (.lit c!":") (.lit c!".")))))) (.seq (.lit c!"=") (.seq (.star true (.grp 6 (.alt (.lit c!"+") (.lit c!".")))) (.star true (.grp 7 (.alt (.cls false [.space]) (.lit c!"\t"))))))))) (.grp 8 (.star true .any))))), [(c!"varname", 1), (c!"varop", 3), (c!"varval", 8)]⟩

theorem reVar_src : compile c! r##"^(?P<varname>([A-Z0-9a-z_.-]|\$|\{|\}|:)+?)(?P<varop>(\s|\t)*(\+|\?|\:|\.)*=(\+|\.)*(\s|\t)*)(?P<varval>.*)"## = some reVar := by decide +kernel

/-- `/repo/oelint_parser/parser.py:33` `__regex_func` -/
def reFunc : Pattern :=
  ⟨(.seq .bos (.seq (.star true (.grp 1 (.alt (.seq (.grp 2 (.lit c!"python")) (.star true (.cls false [.space]))) (.grp 3 (.seq (.lit c!"fakeroot") (.star true (.cls false [.space]))))))) (.seq (.alt (.grp 4 (.seq (.cls false [.word, .one '.', .one '-', .one '+', .one '{', .one '}', .one ':', .one '$']) (.star true (.cls false [.word, .one '.', .one '-', .one '+', .one '{', .one '}', .one ':', .one '$'])))) .eps) (.seq (.star true (.cls false [.space])) (.seq (.lit c!"(") (.seq (.star true (.cls false [.space])) (.seq (.lit c!")") (.seq (.star true (.cls false [.space])) (.seq (.lit c!"{") (.seq (.grp 5 (.star true .any)) (.seq (.star true (.cls false [.space])) (.lit c!"}")))))))))))), [(c!"py", 2), (c!"fr", 3), (c!"func", 4), (c!"funcbody", 5)]⟩

theorem reFunc_src : compile c! r##"^((?P<py>python)\s*|(?P<fr>fakeroot\s*))*(?P<func>[\w\.\-\+\{\}:\$]+)?\s*\(\s*\)\s*\{(?P<funcbody>.*)\s*\}"## = some reFunc := by decide +kernel

/-- `/repo/oelint_parser/parser.py:35` `__regex_inherit` -/
def reInherit : Pattern :=
  ⟨(.seq .bos (.seq (.star true (.grp 1 (.alt (.cls false [.space]) (.lit c!"\t")))) (.seq (.grp 2 (.seq (.lit c!"inherit") (.star true (.grp 3 (.lit c!"_defer"))))) (.seq (.grp 4 (.alt (.seq (.cls false [.space]) (.star true (.cls false [.space]))) (.seq (.lit c!"\t") (.star true (.lit c!"\t"))))) (.grp 5 (.seq .any (.star true .any))))))), [(c!"statement", 2), (c!"inhname", 5)]⟩

theorem reInherit_src : compile c! r##"^(\s|\t)*(?P<statement>inherit(_defer)*)(\s+|\t+)(?P<inhname>.+)"## = some reInherit := by decide +kernel

/-- `/repo/oelint_parser/parser.py:37` `__regex_inherit_glob` -/
def reInheritGlob : Pattern :=
  ⟨(.seq .bos (.seq (.lit c!"INHERIT") (.seq (.grp 1 (.seq (.star true (.grp 2 (.alt (.cls false [.space]) (.lit c!"\t")))) (.seq (.star true (.grp 3 (.alt (.lit c!"+") (.alt (.lit c!"?") (.alt (.lit c!":") (.lit c!".")))))) (.seq (.lit c!"=") (.seq (.star true (.grp 4 (.alt (.lit c!"+") (.lit c!".")))) (.star true (.grp 5 (.alt (.cls false [.space]) (.lit c!"\t"))))))))) (.seq (.grp 6 (.alt (.lit c!"'") (.lit c!"\""))) (.seq (.grp 7 (.star true .any)) (.grp 8 (.alt (.lit c!"'") (.lit c!"\"")))))))), [(c!"varop", 1), (c!"inhname", 7)]⟩

theorem reInheritGlob_src : compile c! r##"^INHERIT(?P<varop>(\s|\t)*(\+|\?|\:|\.)*=(\+|\.)*(\s|\t)*)('|\")(?P<inhname>.*)('|\")"## = some reInheritGlob := by decide +kernel

/-- `/repo/oelint_parser/parser.py:39` `__regex_export_wval` -/
def reExportWval : Pattern :=
  ⟨(.seq .bos (.seq (.star false (.cls false [.space])) (.seq (.lit c!"export") (.seq (.grp 1 (.alt (.seq (.cls false [.space]) (.star true (.cls false [.space]))) (.seq (.lit c!"\t") (.star true (.lit c!"\t"))))) (.seq (.grp 2 (.seq .any (.star true .any))) (.seq (.star true (.cls false [.space])) (.seq (.lit c!"=") (.seq (.star true (.cls false [.space])) (.seq (.lit c!"\"") (.seq (.grp 3 (.star true .any)) (.lit c!"\""))))))))))), [(c!"name", 2), (c!"value", 3)]⟩

theorem reExportWval_src : compile c! r##"^\s*?export(\s+|\t+)(?P<name>.+)\s*=\s*\"(?P<value>.*)\""## = some reExportWval := by decide +kernel

/-- `/repo/oelint_parser/parser.py:41` `__regex_export_woval` -/
def reExportWoval : Pattern :=
  ⟨(.seq .bos (.seq (.star false (.cls false [.space])) (.seq (.lit c!"export") (.seq (.grp 1 (.alt (.seq (.cls false [.space]) (.star true (.cls false [.space]))) (.seq (.lit c!"\t") (.star true (.lit c!"\t"))))) (.seq (.grp 2 (.seq .any (.star true .any))) (.seq (.star true (.cls false [.space])) .eos)))))), [(c!"name", 2)]⟩

theorem reExportWoval_src : compile c! r##"^\s*?export(\s+|\t+)(?P<name>.+)\s*$"## = some reExportWoval := by decide +kernel

/-- `/repo/oelint_parser/parser.py:42` `__regex_comments` -/
def reComments : Pattern :=
  ⟨(.seq .bos (.seq (.star true (.grp 1 (.alt (.cls false [.space]) (.lit c!"\t")))) (.seq (.seq (.lit c!"#") (.star true (.lit c!"#"))) (.seq (.star true (.cls false [.space])) (.grp 2 (.star true .any)))))), [(c!"body", 2)]⟩

theorem reComments_src : compile c! r##"^(\s|\t)*#+\s*(?P<body>.*)"## = some reComments := by decide +kernel

/-- `/repo/oelint_parser/parser.py:43` `__regex_comments_pure` -/
def reCommentsPure : Pattern :=
  ⟨(.seq .bos (.seq (.seq (.lit c!"#") (.star true (.lit c!"#"))) (.seq (.star true (.cls false [.space])) (.grp 1 (.star true .any))))), [(c!"body", 1)]⟩

theorem reCommentsPure_src : compile c! r##"^#+\s*(?P<body>.*)"## = some reCommentsPure := by decide +kernel

/-- `/repo/oelint_parser/parser.py:44` `__regex_python` -/
def rePython : Pattern :=
  ⟨(.seq .bos (.seq (.grp 1 (.alt (.star true (.cls false [.space])) (.star true (.lit c!"\t")))) (.seq (.lit c!"def") (.seq (.grp 2 (.alt (.seq (.cls false [.space]) (.star true (.cls false [.space]))) (.seq (.lit c!"\t") (.star true (.lit c!"\t"))))) (.seq (.grp 3 (.seq (.cls false [.range 'a' 'z', .range '0' '9', .one '_', .one '-']) (.star true (.cls false [.range 'a' 'z', .range '0' '9', .one '_', .one '-'])))) (.seq (.grp 4 (.alt (.star true (.cls false [.space])) (.star true (.lit c!"\t")))) (.seq (.lit c!"(") (.seq (.star true .any) (.lit c!"):"))))))))), [(c!"funcname", 3)]⟩

theorem rePython_src : compile c! r##"^(\s*|\t*)def(\s+|\t+)(?P<funcname>[a-z0-9_\-]+)(\s*|\t*)\(.*\)\:"## = some rePython := by decide +kernel

/-- `/repo/oelint_parser/parser.py:46` `__regex_include` -/
def reInclude : Pattern :=
  ⟨(.seq .bos (.seq (.grp 1 (.alt (.star true (.cls false [.space])) (.star true (.lit c!"\t")))) (.seq (.grp 2 (.alt (.lit c!"include") (.lit c!"require"))) (.seq (.grp 3 (.alt (.seq (.cls false [.space]) (.star true (.cls false [.space]))) (.seq (.lit c!"\t") (.star true (.lit c!"\t"))))) (.grp 4 (.seq (.cls false [.range 'A' 'z', .range 'a' 'z', .range '0' '9', .one '-', .one '.', .one '/', .one '$', .one '{', .one '}']) (.star true (.cls false [.range 'A' 'z', .range 'a' 'z', .range '0' '9', .one '-', .one '.', .one '/', .one '$', .one '{', .one '}'])))))))), [(c!"statement", 2), (c!"incname", 4)]⟩

theorem reInclude_src : compile c! r##"^(\s*|\t*)(?P<statement>include|require)(\s+|\t+)(?P<incname>[A-za-z0-9\-\./\$\{\}]+)"## = some reInclude := by decide +kernel

/-- `/repo/oelint_parser/parser.py:48` `__regex_addtask` -/
def reAddtask : Pattern :=
  ⟨(.seq .bos (.seq (.grp 1 (.alt (.star true (.cls false [.space])) (.star true (.lit c!"\t")))) (.seq (.lit c!"addtask") (.seq (.seq (.cls false [.space]) (.star true (.cls false [.space]))) (.seq (.grp 2 (.seq (.cls false [.word, .one '-']) (.star true (.cls false [.word, .one '-'])))) (.seq (.star true (.cls false [.space])) (.seq (.star true (.grp 3 (.alt (.grp 4 (.seq (.lit c!"before") (.seq (.star true (.cls false [.space])) (.grp 5 (.grp 6 (.alt (.grp 7 (.seq (.star true (.cls true [.one '#', .one '\n'])) (.look false (.lit c!"after")))) (.grp 8 (.star true (.cls true [.one '#', .one '\n']))))))))) (.grp 9 (.seq (.lit c!"after") (.seq (.star true (.cls false [.space])) (.grp 10 (.grp 11 (.alt (.grp 12 (.seq (.star true (.cls true [.one '#', .one '\n'])) (.look false (.lit c!"before")))) (.grp 13 (.star true (.cls true [.one '#', .one '\n'])))))))))))) (.grp 14 (.alt (.seq (.lit c!"#") (.star true .any)) (.star false .any)))))))))), [(c!"func", 2), (c!"before", 5), (c!"after", 10), (c!"comment", 14)]⟩

theorem reAddtask_src : compile c! r##"^(\s*|\t*)addtask\s+(?P<func>[\w\-]+)\s*((before\s*(?P<before>(([^#\n]*(?=after))|([^#\n]*))))|(after\s*(?P<after>(([^#\n]*(?=before))|([^#\n]*)))))*(?P<comment>#.*|.*?)"## = some reAddtask := by decide +kernel

/-- `/repo/oelint_parser/parser.py:50` `__regex_deltask` -/
def reDeltask : Pattern :=
  ⟨(.seq .bos (.seq (.grp 1 (.alt (.star true (.cls false [.space])) (.star true (.lit c!"\t")))) (.seq (.lit c!"deltask") (.seq (.seq (.cls false [.space]) (.star true (.cls false [.space]))) (.seq (.grp 2 (.seq (.cls false [.word, .one '-']) (.star true (.cls false [.word, .one '-'])))) (.seq (.star true (.cls false [.space])) (.star true (.grp 3 (.seq (.lit c!"#") (.star true .any)))))))))), [(c!"func", 2), (c!"comment", 3)]⟩

theorem reDeltask_src : compile c! r##"^(\s*|\t*)deltask\s+(?P<func>[\w\-]+)\s*(?P<comment>#.*)*"## = some reDeltask := by decide +kernel

/-- `/repo/oelint_parser/parser.py:52` `__regex_flagass` -/
def reFlagass : Pattern :=
  ⟨(.seq .bos (.seq (.grp 1 (.alt (.star true (.cls false [.space])) (.star true (.lit c!"\t")))) (.seq (.grp 2 (.seq (.grp 3 (.alt (.cls false [.range 'A' 'Z', .range '0' '9', .range 'a' 'z', .one '_', .one '.', .one '-']) (.alt (.lit c!"$") (.alt (.lit c!"{") (.alt (.lit c!"}") (.lit c!":")))))) (.star false (.grp 3 (.alt (.cls false [.range 'A' 'Z', .range '0' '9', .range 'a' 'z', .one '_', .one '.', .one '-']) (.alt (.lit c!"$") (.alt (.lit c!"{") (.alt (.lit c!"}") (.lit c!":"))))))))) (.seq (.lit c!"[") (.seq (.grp 4 (.seq (.grp 5 (.alt (.cls false [.word]) (.alt (.lit c!"-") (.alt (.lit c!".") (.alt (.lit c!"/") (.alt (.lit c!"@") (.lit c!"_"))))))) (.star true (.grp 5 (.alt (.cls false [.word]) (.alt (.lit c!"-") (.alt (.lit c!".") (.alt (.lit c!"/") (.alt (.lit c!"@") (.lit c!"_")))))))))) (.seq (.lit c!"]") (.seq (.grp 6 (.seq (.star true (.grp 7 (.alt (.cls false [.space]) (.lit c!"\t")))) (.seq (.star true (.grp 8 (.alt (.lit c!"+") (.alt (.lit c!"?") (.alt (.lit c!":") (.lit c!".")))))) (.seq (.lit c!"=") (.seq (.star true (.grp 9 (.alt (.lit c!"+") (.lit c!".")))) (.star true (.grp 10 (.alt (.cls false [.space]) (.lit c!"\t"))))))))) (.grp 11 (.star true .any))))))))), [(c!"name", 2), (c!"ident", 4), (c!"varop", 6), (c!"varval", 11)]⟩

theorem reFlagass_src : compile c! r##"^(\s*|\t*)(?P<name>([A-Z0-9a-z_.-]|\$|\{|\}|:)+?)\[(?P<ident>(\w|-|\.|/|@|_)+)\](?P<varop>(\s|\t)*(\+|\?|\:|\.)*=(\+|\.)*(\s|\t)*)(?P<varval>.*)"## = some reFlagass := by decide +kernel

/-- `/repo/oelint_parser/parser.py:54` `__regex_export_func` -/
def reExportFunc : Pattern :=
  ⟨(.seq .bos (.seq (.lit c!"EXPORT_FUNCTIONS") (.seq (.seq (.cls false [.space]) (.star true (.cls false [.space]))) (.grp 1 (.star true .any))))), [(c!"func", 1)]⟩

theorem reExportFunc_src : compile c! r##"^EXPORT_FUNCTIONS\s+(?P<func>.*)"## = some reExportFunc := by decide +kernel

/-- `/repo/oelint_parser/parser.py:55` `__regex_addpylib` -/
def reAddpylib : Pattern :=
  ⟨(.seq .bos (.seq (.grp 1 (.alt (.seq (.cls false [.space]) (.star true (.cls false [.space]))) (.star true (.lit c!"\t")))) (.seq (.lit c!"addpylib") (.seq (.grp 2 (.alt (.seq (.cls false [.space]) (.star true (.cls false [.space]))) (.seq (.lit c!"\t") (.star true (.lit c!"\t"))))) (.seq (.grp 3 (.seq (.lit c!"${LAYERDIR}/") (.seq .any (.star true .any)))) (.seq (.grp 4 (.alt (.seq (.cls false [.space]) (.star true (.cls false [.space]))) (.seq (.lit c!"\t") (.star true (.lit c!"\t"))))) (.grp 5 (.star true .any)))))))), [(c!"path", 3), (c!"namespace", 5)]⟩

theorem reAddpylib_src : compile c! r##"^(\s+|\t*)addpylib(\s+|\t+)(?P<path>\$\{LAYERDIR\}/.+)(\s+|\t+)(?P<namespace>.*)"## = some reAddpylib := by decide +kernel

/-- `/repo/oelint_parser/parser.py:57` `__regex_unset` -/
def reUnset : Pattern :=
  ⟨(.seq .bos (.seq (.star true (.grp 1 (.alt (.seq (.cls false [.space]) (.star true (.cls false [.space]))) (.seq (.lit c!"\t") (.star true (.lit c!"\t")))))) (.seq (.lit c!"unset") (.seq (.seq (.grp 2 (.alt (.seq (.cls false [.space]) (.star true (.cls false [.space]))) (.seq (.lit c!"\t") (.star true (.lit c!"\t"))))) (.star true (.grp 2 (.alt (.seq (.cls false [.space]) (.star true (.cls false [.space]))) (.seq (.lit c!"\t") (.star true (.lit c!"\t"))))))) (.seq (.grp 3 (.seq .any (.star false .any))) (.star true (.grp 4 (.seq (.star true (.lit c!"[")) (.seq (.grp 5 (.seq .any (.star true .any))) (.lit c!"]")))))))))), [(c!"varname", 3), (c!"flag", 5)]⟩

theorem reUnset_src : compile c! r##"^(\s+|\t+)*unset(\s+|\t+)+(?P<varname>.+?)(\[*(?P<flag>.+)\])*"## = some reUnset := by decide +kernel

/-- `/repo/oelint_parser/parser.py:59` `__regex_addfragments` -/
def reAddfragments : Pattern :=
  ⟨(.seq (.lit c!"addfragments") (.seq (.seq (.cls false [.space]) (.star true (.cls false [.space]))) (.seq (.grp 1 (.seq .any (.star true .any))) (.seq (.seq (.cls false [.space]) (.star true (.cls false [.space]))) (.seq (.grp 2 (.seq .any (.star true .any))) (.seq (.seq (.cls false [.space]) (.star true (.cls false [.space]))) (.grp 3 (.seq .any (.star true .any))))))))), [(c!"path", 1), (c!"variable", 2), (c!"flagged", 3)]⟩

theorem reAddfragments_src : compile c! r##"addfragments\s+(?P<path>.+)\s+(?P<variable>.+)\s+(?P<flagged>.+)"## = some reAddfragments := by decide +kernel

/-- `/repo/oelint_parser/parser.py:61` `__regex_includeall` -/
def reIncludeall : Pattern :=
  ⟨(.seq (.lit c!"include_all") (.seq (.seq (.cls false [.space]) (.star true (.cls false [.space]))) (.grp 1 (.seq .any (.star true .any))))), [(c!"file", 1)]⟩

theorem reIncludeall_src : compile c! r##"include_all\s+(?P<file>.+)"## = some reIncludeall := by decide +kernel

/-- `/repo/oelint_parser/parser.py:62` `__func_start_regexp__` -/
def reFuncStart : Pattern :=
  ⟨(.seq (.star true .any) (.seq (.star true (.grp 1 (.seq (.grp 2 (.alt (.grp 3 (.lit c!"python")) (.grp 4 (.lit c!"fakeroot")))) (.star true (.cls false [.space]))))) (.seq (.alt (.grp 5 (.seq (.cls false [.word, .one '.', .one '-', .one '+', .one '{', .one '}', .one '$']) (.star true (.cls false [.word, .one '.', .one '-', .one '+', .one '{', .one '}', .one '$'])))) .eps) (.seq (.star true (.cls false [.space])) (.seq (.lit c!"(") (.seq (.star true (.cls false [.space])) (.seq (.lit c!")") (.seq (.star true (.cls false [.space])) (.lit c!"{"))))))))), [(c!"py", 3), (c!"fr", 4), (c!"func", 5)]⟩

theorem reFuncStart_src : compile c! r##".*(((?P<py>python)|(?P<fr>fakeroot))\s*)*(?P<func>[\w\.\-\+\{\}\$]+)?\s*\(\s*\)\s*\{"## = some reFuncStart := by decide +kernel

/-- `/repo/oelint_parser/parser.py:64` `__next_line_regex__` -/
def reNextLine : Pattern :=
  ⟨(.seq (.lit c!"\\") (.seq (.star true (.cls false [.space])) (.lit c!"\n"))), []⟩

theorem reNextLine_src : compile c! r##"\\\s*\n"## = some reNextLine := by decide +kernel

/-- `/repo/oelint_parser/parser.py:65` `__valid_func_name_regex__` -/
def reValidFuncName : Pattern :=
  ⟨(.seq .bos (.seq (.cls false [.range 'A' 'Z', .range 'a' 'z', .range '0' '9', .one '#']) (.star true (.cls false [.range 'A' 'Z', .range 'a' 'z', .range '0' '9', .one '#'])))), []⟩

theorem reValidFuncName_src : compile c! r##"^[A-Za-z0-9#]+"## = some reValidFuncName := by decide +kernel

/-- `/repo/oelint_parser/cls_item.py:10` `__safeline_split_regex__` -/
def reSafelineSplit : Pattern :=
  ⟨(.alt (.cls false [.space]) (.alt (.lit c!"\t") (.seq (.lit c!"\x1b") (.look true (.lit c!"x"))))), []⟩

theorem reSafelineSplit_src : compile c! r##"\s|\t|\x1b(?!x)"## = some reSafelineSplit := by decide +kernel

/-- `/repo/oelint_parser/cls_item.py:11` `__id_regex__` -/
def reId : Pattern :=
  ⟨(.seq (.cls false [.range 'a' 'z', .range '0' '9', .one '{', .one '}', .one '$']) (.star true (.cls false [.range 'a' 'z', .range '0' '9', .one '{', .one '}', .one '$']))), []⟩

theorem reId_src : compile c! r##"[a-z0-9{}$]+"## = some reId := by decide +kernel

/-- `/repo/oelint_parser/cls_item.py:12` `__versioned_regex__` -/
def reVersioned : Pattern :=
  ⟨(.seq (.star true (.cls false [.space])) (.seq (.lit c!"(") (.seq (.star false .any) (.lit c!")")))), []⟩

theorem reVersioned_src : compile c! r##"\s*\(.*?\)"## = some reVersioned := by decide +kernel

/-- `/repo/oelint_parser/cls_stash.py:16` `__safeline_split_regex__` -/
def reStashSafelineSplit : Pattern :=
  ⟨(.alt (.cls false [.space]) (.alt (.lit c!"\t") (.lit c!"\x1b"))), []⟩

theorem reStashSafelineSplit_src : compile c! r##"\s|\t|\x1b"## = some reStashSafelineSplit := by decide +kernel

/-- `/repo/oelint_parser/cls_stash.py:17` `__class_id_regex__` -/
def reClassId : Pattern :=
  ⟨(.seq .bos (.seq (.star true (.grp 1 (.lit c!"nativesdk-"))) (.seq (.grp 2 (.seq .any (.star true .any))) (.seq (.star true (.grp 3 (.lit c!"-native"))) (.star true (.grp 4 (.lit c!"-cross"))))))), []⟩

theorem reClassId_src : compile c! r##"^(nativesdk-)*(.+)(-native)*(-cross)*"## = some reClassId := by decide +kernel

/-- `/repo/oelint_parser/cls_stash.py:18` `__class_id_native_regex__` -/
def reClassIdNative : Pattern :=
  ⟨(.seq .bos (.seq (.grp 1 (.seq .any (.star true .any))) (.seq (.grp 2 (.lit c!"-native")) .eos))), []⟩

theorem reClassIdNative_src : compile c! r##"^(.+)(-native)$"## = some reClassIdNative := by decide +kernel

/-- `/repo/oelint_parser/cls_stash.py:19` `__class_id_cross_regex__` -/
def reClassIdCross : Pattern :=
  ⟨(.seq .bos (.seq (.grp 1 (.seq .any (.star true .any))) (.seq (.grp 2 (.lit c!"-cross")) .eos))), []⟩

theorem reClassIdCross_src : compile c! r##"^(.+)(-cross)$"## = some reClassIdCross := by decide +kernel

/-- `/repo/oelint_parser/cls_stash.py:20` `__variable_pattern_regex__` -/
def reVariablePattern : Pattern :=
  ⟨(.seq (.lit c!"${") (.seq (.grp 1 (.seq .any (.star false .any))) (.lit c!"}"))), []⟩

theorem reVariablePattern_src : compile c! r##"\$\{(.+?)\}"## = some reVariablePattern := by decide +kernel

/-- `/repo/oelint_parser/cls_stash.py:21` `__variable_pattern_regex_2__` -/
def reVariablePattern2 : Pattern :=
  ⟨(.seq (.lit c!"d") (.seq .any (.seq (.lit c!"getVar(") (.seq .any (.seq (.grp 1 (.seq .any (.star false .any))) (.seq .any (.seq (.star true (.grp 2 (.alt (.lit c!"True") (.alt (.lit c!"False") (.alt (.lit c!",") (.seq (.cls false [.space]) (.star true (.cls false [.space])))))))) (.lit c!")")))))))), []⟩

theorem reVariablePattern2_src : compile c! r##"d.getVar\(.(.+?).(True|False|,|\s+)*\)"## = some reVariablePattern2 := by decide +kernel

/-- `/repo/oelint_parser/cls_stash.py:23` `__oe_utils_read_file_regex__` -/
def reOeUtilsReadFile : Pattern :=
  ⟨(.seq (.lit c!"{@") (.seq (.star true (.cls false [.space])) (.seq (.grp 1 (.star true .any)) (.seq (.lit c!"oe.utils.read_file(") (.seq (.grp 2 (.star true .any)) (.lit c!")}")))))), [(c!"file", 2)]⟩

theorem reOeUtilsReadFile_src : compile c! r##"\{@\s*(.*)oe\.utils\.read_file\((?P<file>.*)\)\}"## = some reOeUtilsReadFile := by decide +kernel

/-- `/repo/oelint_parser/inlinerep.py:5` `__bb_utils_filter_regex__` -/
def reBbUtilsFilter : Pattern :=
  ⟨(.seq (.grp 1 (.star true .any)) (.seq (.lit c!"bb.utils.filter(") (.seq (.star true (.cls false [.space])) (.seq (.grp 2 (.star false .any)) (.seq (.lit c!",") (.seq (.star false .any) (.seq (.lit c!",") (.seq (.star false .any) (.lit c!")"))))))))), [(c!"trueval", 2)]⟩

theorem reBbUtilsFilter_src : compile c! r##"(.*)bb\.utils\.filter\(\s*(?P<trueval>.*?),.*?,.*?\)"## = some reBbUtilsFilter := by decide +kernel

/-- `/repo/oelint_parser/inlinerep.py:7` `__bb_utils_contains_regex__` -/
def reBbUtilsContains : Pattern :=
  ⟨(.seq (.grp 1 (.star true .any)) (.seq (.lit c!"bb.utils.contains(") (.seq (.star false .any) (.seq (.lit c!",") (.seq (.star true (.cls false [.space])) (.seq (.star false .any) (.seq (.lit c!",") (.seq (.star true (.cls false [.space])) (.seq (.grp 2 (.star false .any)) (.seq (.lit c!",") (.seq (.star true (.cls false [.space])) (.seq (.grp 3 (.star false .any)) (.seq (.lit c!",") (.seq (.star true (.cls false [.space])) (.seq .any (.lit c!")")))))))))))))))), [(c!"trueval", 2), (c!"falseval", 3)]⟩

theorem reBbUtilsContains_src : compile c! r##"(.*)bb\.utils\.contains\(.*?,\s*.*?,\s*(?P<trueval>.*?),\s*(?P<falseval>.*?),\s*.\)"## = some reBbUtilsContains := by decide +kernel

/-- `/repo/oelint_parser/inlinerep.py:9` `__bb_utils_contains_any_regex__` -/
def reBbUtilsContainsAny : Pattern :=
  ⟨(.seq (.grp 1 (.star true .any)) (.seq (.lit c!"bb.utils.contains_any(") (.seq (.star false .any) (.seq (.lit c!",") (.seq (.star true (.cls false [.space])) (.seq (.star false .any) (.seq (.lit c!",") (.seq (.star true (.cls false [.space])) (.seq (.grp 2 (.star false .any)) (.seq (.lit c!",") (.seq (.star true (.cls false [.space])) (.seq (.grp 3 (.star false .any)) (.seq (.lit c!",") (.seq (.star true (.cls false [.space])) (.seq .any (.lit c!")")))))))))))))))), [(c!"trueval", 2), (c!"falseval", 3)]⟩

theorem reBbUtilsContainsAny_src : compile c! r##"(.*)bb\.utils\.contains_any\(.*?,\s*.*?,\s*(?P<trueval>.*?),\s*(?P<falseval>.*?),\s*.\)"## = some reBbUtilsContainsAny := by decide +kernel

/-- `/repo/oelint_parser/inlinerep.py:11` `__oe_utils_conditional_regex__` -/
def reOeUtilsConditional : Pattern :=
  ⟨(.seq (.grp 1 (.star true .any)) (.seq (.lit c!"oe.utils.conditional(") (.seq (.star false .any) (.seq (.lit c!",") (.seq (.star true (.cls false [.space])) (.seq (.star false .any) (.seq (.lit c!",") (.seq (.star true (.cls false [.space])) (.seq (.grp 2 (.star false .any)) (.seq (.lit c!",") (.seq (.star true (.cls false [.space])) (.seq (.grp 3 (.star false .any)) (.seq (.lit c!",") (.seq (.star true (.cls false [.space])) (.seq (.star false .any) (.lit c!")")))))))))))))))), [(c!"trueval", 2), (c!"falseval", 3)]⟩

theorem reOeUtilsConditional_src : compile c! r##"(.*)oe\.utils\.conditional\(.*?,\s*.*?,\s*(?P<trueval>.*?),\s*(?P<falseval>.*?),\s*.*?\)"## = some reOeUtilsConditional := by decide +kernel

/-- `/repo/oelint_parser/inlinerep.py:13` `__oe_utils_ifelse_regex__` -/
def reOeUtilsIfelse : Pattern :=
  ⟨(.seq (.grp 1 (.star true .any)) (.seq (.lit c!"oe.utils.ifelse(") (.seq (.star false .any) (.seq (.lit c!",") (.seq (.star true (.cls false [.space])) (.seq (.grp 2 (.star false .any)) (.seq (.lit c!",") (.seq (.star true (.cls false [.space])) (.seq (.grp 3 (.star false .any)) (.lit c!")")))))))))), [(c!"trueval", 2), (c!"falseval", 3)]⟩

theorem reOeUtilsIfelse_src : compile c! r##"(.*)oe\.utils\.ifelse\(.*?,\s*(?P<trueval>.*?),\s*(?P<falseval>.*?)\)"## = some reOeUtilsIfelse := by decide +kernel

/-- `/repo/oelint_parser/inlinerep.py:15` `__oe_utils_any_distro_features_regex__` -/
def reOeUtilsAnyDistroFeatures : Pattern :=
  ⟨(.seq (.grp 1 (.star true .any)) (.seq (.lit c!"oe.utils.any_distro_features(") (.seq (.star false .any) (.seq (.lit c!",") (.seq (.star true (.cls false [.space])) (.seq (.grp 2 (.star false .any)) (.seq (.star true (.grp 3 (.seq (.lit c!",") (.seq (.star true (.cls false [.space])) (.seq (.grp 4 (.star false .any)) (.star true (.grp 5 (.seq (.lit c!",") (.seq (.star true (.cls false [.space])) (.grp 6 (.star false .any))))))))))) (.lit c!")")))))))), [(c!"feature", 2), (c!"trueval", 4), (c!"falseval", 6)]⟩

theorem reOeUtilsAnyDistroFeatures_src : compile c! r##"(.*)oe\.utils\.any_distro_features\(.*?,\s*(?P<feature>.*?)(,\s*(?P<trueval>.*?)(,\s*(?P<falseval>.*?))*)*\)"## = some reOeUtilsAnyDistroFeatures := by decide +kernel

/-- `/repo/oelint_parser/inlinerep.py:17` `__oe_utils_all_distro_features_regex__` -/
def reOeUtilsAllDistroFeatures : Pattern :=
  ⟨(.seq (.grp 1 (.star true .any)) (.seq (.lit c!"oe.utils.all_distro_features(") (.seq (.star false .any) (.seq (.lit c!",") (.seq (.star true (.cls false [.space])) (.seq (.grp 2 (.star false .any)) (.seq (.star true (.grp 3 (.seq (.lit c!",") (.seq (.star true (.cls false [.space])) (.seq (.grp 4 (.star false .any)) (.star true (.grp 5 (.seq (.lit c!",") (.seq (.star true (.cls false [.space])) (.grp 6 (.star false .any))))))))))) (.lit c!")")))))))), [(c!"feature", 2), (c!"trueval", 4), (c!"falseval", 6)]⟩

theorem reOeUtilsAllDistroFeatures_src : compile c! r##"(.*)oe\.utils\.all_distro_features\(.*?,\s*(?P<feature>.*?)(,\s*(?P<trueval>.*?)(,\s*(?P<falseval>.*?))*)*\)"## = some reOeUtilsAllDistroFeatures := by decide +kernel

/-- `/repo/oelint_parser/inlinerep.py:19` `__oe_utils_vartrue_regex__` -/
def reOeUtilsVartrue : Pattern :=
  ⟨(.seq (.grp 1 (.star true .any)) (.seq (.lit c!"oe.utils.vartrue(") (.seq (.star false .any) (.seq (.lit c!",") (.seq (.star true (.cls false [.space])) (.seq (.grp 2 (.star false .any)) (.seq (.lit c!",") (.seq (.star true (.cls false [.space])) (.seq (.grp 3 (.star false .any)) (.seq (.lit c!",") (.seq (.star false .any) (.lit c!")")))))))))))), [(c!"trueval", 2), (c!"falseval", 3)]⟩

theorem reOeUtilsVartrue_src : compile c! r##"(.*)oe\.utils\.vartrue\(.*?,\s*(?P<trueval>.*?),\s*(?P<falseval>.*?),.*?\)"## = some reOeUtilsVartrue := by decide +kernel

/-- `/repo/oelint_parser/inlinerep.py:21` `__oe_utils_less_or_equal_regex__` -/
def reOeUtilsLessOrEqual : Pattern :=
  ⟨(.seq (.grp 1 (.star true .any)) (.seq (.lit c!"oe.utils.less_or_equal(") (.seq (.star false .any) (.seq (.lit c!",") (.seq (.star true (.cls false [.space])) (.seq (.star false .any) (.seq (.lit c!",") (.seq (.star true (.cls false [.space])) (.seq (.grp 2 (.star false .any)) (.seq (.lit c!",") (.seq (.star true (.cls false [.space])) (.seq (.grp 3 (.star false .any)) (.seq (.lit c!",") (.seq (.star false .any) (.lit c!")"))))))))))))))), [(c!"trueval", 2), (c!"falseval", 3)]⟩

theorem reOeUtilsLessOrEqual_src : compile c! r##"(.*)oe\.utils\.less_or_equal\(.*?,\s*.*?,\s*(?P<trueval>.*?),\s*(?P<falseval>.*?),.*?\)"## = some reOeUtilsLessOrEqual := by decide +kernel

/-- `/repo/oelint_parser/inlinerep.py:23` `__oe_utils_version_less_or_equal_regex__` -/
def reOeUtilsVersionLessOrEqual : Pattern :=
  ⟨(.seq (.grp 1 (.star true .any)) (.seq (.lit c!"oe.utils.version_less_or_equal(") (.seq (.star false .any) (.seq (.lit c!",") (.seq (.star true (.cls false [.space])) (.seq (.star false .any) (.seq (.lit c!",") (.seq (.star true (.cls false [.space])) (.seq (.grp 2 (.star false .any)) (.seq (.lit c!",") (.seq (.star true (.cls false [.space])) (.seq (.grp 3 (.star false .any)) (.seq (.lit c!",") (.seq (.star false .any) (.lit c!")"))))))))))))))), [(c!"trueval", 2), (c!"falseval", 3)]⟩

theorem reOeUtilsVersionLessOrEqual_src : compile c! r##"(.*)oe\.utils\.version_less_or_equal\(.*?,\s*.*?,\s*(?P<trueval>.*?),\s*(?P<falseval>.*?),.*?\)"## = some reOeUtilsVersionLessOrEqual := by decide +kernel

/-- `/repo/oelint_parser/inlinerep.py:25` `__oe_utils_both_contain_regex__` -/
def reOeUtilsBothContain : Pattern :=
  ⟨(.seq (.grp 1 (.star true .any)) (.seq (.lit c!"oe.utils.both_contain(") (.seq (.star false .any) (.seq (.lit c!",") (.seq (.star true (.cls false [.space])) (.seq (.star false .any) (.seq (.lit c!",") (.seq (.star true (.cls false [.space])) (.seq (.grp 2 (.star false .any)) (.seq (.lit c!",") (.seq (.star false .any) (.lit c!")")))))))))))), [(c!"trueval", 2)]⟩

theorem reOeUtilsBothContain_src : compile c! r##"(.*)oe\.utils\.both_contain\(.*?,\s*.*?,\s*(?P<trueval>.*?),.*?\)"## = some reOeUtilsBothContain := by decide +kernel

/-- `/repo/oelint_parser/inlinerep.py:27` `__d_getvar_regex__` -/
def reDGetvar : Pattern :=
  ⟨(.seq (.star true (.cls false [.space])) (.seq (.lit c!"d.getVar(") (.seq (.star true (.cls false [.space])) (.seq (.grp 1 (.star false .any)) (.seq (.star true (.cls false [.space])) (.lit c!")")))))), [(c!"val", 1)]⟩

theorem reDGetvar_src : compile c! r##"\s*d\.getVar\(\s*(?P<val>.*?)\s*\)"## = some reDGetvar := by decide +kernel

/-- every pattern of the code base -/
def allPatterns : List Pattern :=
  [reVar, reFunc, reInherit, reInheritGlob, reExportWval, reExportWoval, reComments, reCommentsPure, rePython, reInclude, reAddtask, reDeltask, reFlagass, reExportFunc, reAddpylib, reUnset, reAddfragments, reIncludeall, reFuncStart, reNextLine, reValidFuncName, reSafelineSplit, reId, reVersioned, reStashSafelineSplit, reClassId, reClassIdNative, reClassIdCross, reVariablePattern, reVariablePattern2, reOeUtilsReadFile, reBbUtilsFilter, reBbUtilsContains, reBbUtilsContainsAny, reOeUtilsConditional, reOeUtilsIfelse, reOeUtilsAnyDistroFeatures, reOeUtilsAllDistroFeatures, reOeUtilsVartrue, reOeUtilsLessOrEqual, reOeUtilsVersionLessOrEqual, reOeUtilsBothContain, reDGetvar]

/-- No loop of any pattern has a body that can match the empty text, so the treatment of empty iterations in the model
never matters. -/
theorem allPatterns_loopsOk : allPatterns.all (fun p => p.re.loopsOk) = true := by decide +kernel

end Oelint
