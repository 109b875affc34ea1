# Which function is modelled where

Written by tools/gen_coverage.py from the comments of the model definitions. Functions without entry are listed in DESIGN.md under "not modelled".

| file | function | lines | model definitions |
|---|---|---|---|
| cls_item.py | `Item.__init__` | 24-50 | `Item.Item`, `Item.mkItemD`, `Item.initDelim`, `Repr.Attr.repr` |
| cls_item.py | `Item.Line` | 52-59 | `Item.baseAttributes` |
| cls_item.py | `Item.Line` | 61-63 | `Item.baseAttributes`, `Setters.Item.assign`, `Setters.assignTo`, `Setters.CStash.assign` |
| cls_item.py | `Item.Raw` | 65-72 | `Item.baseAttributes` |
| cls_item.py | `Item.Raw` | 74-76 | `Item.baseAttributes`, `Setters.Item.assign`, `Setters.assignTo`, `Setters.CStash.assign` |
| cls_item.py | `Item.Origin` | 78-85 | `Item.baseAttributes` |
| cls_item.py | `Item.InFileLine` | 87-94 | `Item.baseAttributes` |
| cls_item.py | `Item.RealRaw` | 96-103 | `Item.baseAttributes` |
| cls_item.py | `Item.RealRaw` | 105-107 | `Item.baseAttributes`, `Setters.Item.assign`, `Setters.assignTo`, `Setters.CStash.assign` |
| cls_item.py | `Item.IsFromClass` | 109-116 | `Item.Item.isFromClass`, `Item.baseAttributes` |
| cls_item.py | `Item.OverrideDelimiter` | 118-125 | `Item.baseAttributes` |
| cls_item.py | `Item.IsNewStyleOverrideSyntax` | 127-134 | `Item.Item.isNewStyle`, `Item.baseAttributes` |
| cls_item.py | `Item.InlineBlocks` | 136-138 | `Item.baseAttributes` |
| cls_item.py | `Item.IncludedFrom` | 140-147 | `Item.baseAttributes` |
| cls_item.py | `Item.IncludedFrom` | 149-151 | `Item.baseAttributes`, `Setters.Item.assign`, `Setters.assignTo`, `Setters.CStash.assign`, `StashOps.addIncluded` |
| cls_item.py | `Item.safe_linesplit` | 153-163 | `Item.safeLinesplit` |
| cls_item.py | `Item._safe_linesplit` | 165-166 | `Item.safeLinesplit` |
| cls_item.py | `Item.get_items` | 168-174 | `Item.Item.getItems` |
| cls_item.py | `Item.extract_sub` | 176-205 | `Item.isOverridePiece`, `Item.pieceText`, `Item.extractLoop`, `Item.delimFor`, `Item.extractSub`, `Str.splitC`, `Str.joinS` |
| cls_item.py | `Item.extract_sub_func` | 207-233 | `Item.delimFor`, `Item.funcMarkers`, `Item.extractFuncLoop`, `Item.extractSubFunc`, `Parser.handleKind` |
| cls_item.py | `Item.IsFromAppend` | 235-241 | `Item.Item.isFromAppend` |
| cls_item.py | `Item.GetAttributes` | 243-258 | `Item.Item.getAttributes` |
| cls_item.py | `Item.__repr__` | 260-261 | `Repr.Item.repr`, `Stash.World.repr` |
| cls_item.py | `Variable.__init__` | 274-293 | `Item.VarData`, `Item.Payload`, `Item.splitNE`, `Item.mkVariable`, `Str.splitC` |
| cls_item.py | `Variable.VarName` | 295-302 | `Item.Payload`, `Item.ownAttributes` |
| cls_item.py | `Variable.SubItem` | 304-311 | `Item.Payload`, `Item.ownAttributes` |
| cls_item.py | `Variable.SubItems` | 313-320 | `Item.Payload`, `Item.ownAttributes` |
| cls_item.py | `Variable.VarValue` | 322-329 | `Item.Payload`, `Item.ownAttributes` |
| cls_item.py | `Variable.VarValue` | 331-333 | `Item.Payload`, `Item.ownAttributes`, `Setters.Item.assign`, `Setters.assignTo`, `Setters.CStash.assign` |
| cls_item.py | `Variable.VarOp` | 335-342 | `Item.Payload`, `Item.ownAttributes` |
| cls_item.py | `Variable.VarNameComplete` | 344-351 | `Item.Payload`, `Item.varNameComplete`, `Item.ownAttributes`, `Str.joinS` |
| cls_item.py | `Variable.VarNameCompleteNoModifiers` | 353-360 | `Item.Payload`, `Item.modifierNames`, `Item.varNameCompleteNoModifiers`, `Item.ownAttributes` |
| cls_item.py | `Variable.RawVarName` | 362-369 | `Item.Payload`, `Item.ownAttributes` |
| cls_item.py | `Variable.VarValueStripped` | 371-378 | `Item.Payload`, `Item.varValueStripped`, `Item.ownAttributes`, `Str.pySpace` |
| cls_item.py | `Variable.IsAppend` | 380-386 | `Item.Payload`, `Item.appendOps`, `Item.varIsAppend`, `Item.ownAttributes`, `Str.pySpace` |
| cls_item.py | `Variable.AppendOperation` | 388-403 | `Item.Payload`, `Item.appendOps`, `Item.appendOperation`, `Item.ownAttributes`, `Str.pySpace` |
| cls_item.py | `Variable.get_items` | 405-418 | `Item.Payload`, `Item.varGetItems`, `Item.Item.getItems`, `Item.ownAttributes` |
| cls_item.py | `Variable.IsMultiLine` | 420-426 | `Item.Payload`, `Item.isMultiLine`, `Item.ownAttributes` |
| cls_item.py | `Variable.GetDistroEntry` | 428-435 | `Item.Payload`, `Item.getDistroEntry`, `Item.ownAttributes` |
| cls_item.py | `Variable.GetMachineEntry` | 437-446 | `Item.Payload`, `Item.varNotMachine`, `Item.varMachineEntry`, `Item.ownAttributes` |
| cls_item.py | `Variable.GetClassOverride` | 448-457 | `Item.Payload`, `Item.classOverrides`, `Item.getClassOverride`, `Item.ownAttributes` |
| cls_item.py | `Variable.IsImmediateModify` | 459-465 | `Item.Payload`, `Item.modifierNames`, `Item.isImmediateModify`, `Item.ownAttributes` |
| cls_item.py | `Comment.__init__` | 472-477 | `Item.Payload`, `Item.ownAttributes` |
| cls_item.py | `Comment.get_items` | 479-485 | `Item.Payload`, `Item.Item.getItems`, `Item.ownAttributes`, `Str.splitC` |
| cls_item.py | `Include.__init__` | 496-511 | `Item.Payload`, `Item.ownAttributes` |
| cls_item.py | `Include.IncName` | 513-520 | `Item.Payload`, `Item.ownAttributes` |
| cls_item.py | `Include.Statement` | 522-529 | `Item.Payload`, `Item.ownAttributes` |
| cls_item.py | `Include.FileIncluded` | 531-538 | `Item.Payload`, `Item.ownAttributes` |
| cls_item.py | `Include.get_items` | 540-546 | `Item.Payload`, `Item.Item.getItems`, `Item.ownAttributes` |
| cls_item.py | `Export.__init__` | 556-572 | `Item.Payload`, `Item.ownAttributes` |
| cls_item.py | `Export.Name` | 574-581 | `Item.Payload`, `Item.ownAttributes` |
| cls_item.py | `Export.Value` | 583-590 | `Item.Payload`, `Item.ownAttributes` |
| cls_item.py | `Export.get_items` | 592-598 | `Item.Payload`, `Item.Item.getItems`, `Item.ownAttributes` |
| cls_item.py | `Function.__init__` | 608-633 | `Item.FuncData`, `Item.Payload`, `Item.splitNE`, `Item.mkFunction`, `Item.ownAttributes`, `Str.pySpace`, `Str.findSub` |
| cls_item.py | `Function.IsPython` | 635-642 | `Item.Payload`, `Item.ownAttributes` |
| cls_item.py | `Function.IsFakeroot` | 644-651 | `Item.Payload`, `Item.ownAttributes` |
| cls_item.py | `Function.FuncName` | 653-660 | `Item.Payload`, `Item.ownAttributes` |
| cls_item.py | `Function.FuncNameComplete` | 662-669 | `Item.Payload`, `Item.funcNameComplete`, `Item.ownAttributes` |
| cls_item.py | `Function.SubItem` | 671-678 | `Item.Payload`, `Item.ownAttributes` |
| cls_item.py | `Function.SubItems` | 680-687 | `Item.Payload`, `Item.ownAttributes` |
| cls_item.py | `Function.FuncBody` | 689-696 | `Item.Payload`, `Item.ownAttributes` |
| cls_item.py | `Function.FuncBody` | 698-700 | `Item.Payload`, `Item.ownAttributes`, `Setters.Item.assign`, `Setters.assignTo`, `Setters.CStash.assign` |
| cls_item.py | `Function.FuncBodyStripped` | 702-710 | `Item.Payload`, `Item.funcBodyStripped`, `Item.ownAttributes`, `Str.pySpace` |
| cls_item.py | `Function.FuncBodyRaw` | 712-719 | `Item.Payload`, `Item.ownAttributes` |
| cls_item.py | `Function.GetDistroEntry` | 721-728 | `Item.Payload`, `Item.getDistroEntry`, `Item.ownAttributes` |
| cls_item.py | `Function.GetMachineEntry` | 730-739 | `Item.Payload`, `Item.funcNotMachine`, `Item.funcMachineEntry`, `Item.ownAttributes` |
| cls_item.py | `Function.IsAppend` | 741-747 | `Item.Payload`, `Item.funcIsAppend`, `Item.ownAttributes` |
| cls_item.py | `Function.get_items` | 749-755 | `Item.Payload`, `Item.Item.getItems`, `Item.ownAttributes` |
| cls_item.py | `PythonBlock.__init__` | 764-773 | `Item.Payload`, `Item.ownAttributes` |
| cls_item.py | `PythonBlock.FuncName` | 775-782 | `Item.Payload`, `Item.ownAttributes` |
| cls_item.py | `PythonBlock.get_items` | 784-790 | `Item.Payload`, `Item.Item.getItems`, `Item.ownAttributes` |
| cls_item.py | `FlagAssignment.__init__` | 803-821 | `Item.Payload`, `Item.ownAttributes` |
| cls_item.py | `FlagAssignment.VarName` | 823-830 | `Item.Payload`, `Item.ownAttributes` |
| cls_item.py | `FlagAssignment.Flag` | 832-839 | `Item.Payload`, `Item.ownAttributes` |
| cls_item.py | `FlagAssignment.VarOp` | 841-848 | `Item.Payload`, `Item.ownAttributes` |
| cls_item.py | `FlagAssignment.Value` | 850-857 | `Item.Payload`, `Item.ownAttributes` |
| cls_item.py | `FlagAssignment.ValueStripped` | 859-866 | `Item.Payload`, `Item.ownAttributes` |
| cls_item.py | `FlagAssignment.get_items` | 868-874 | `Item.Payload`, `Item.Item.getItems`, `Item.ownAttributes` |
| cls_item.py | `FunctionExports.__init__` | 883-892 | `Item.Payload`, `Item.ownAttributes` |
| cls_item.py | `FunctionExports.FuncNames` | 894-901 | `Item.Payload`, `Item.ownAttributes` |
| cls_item.py | `FunctionExports.get_items` | 903-909 | `Item.Payload`, `Item.splitNE`, `Item.exportsItems`, `Item.Item.getItems`, `Item.ownAttributes` |
| cls_item.py | `FunctionExports.get_items_unaliased` | 911-918 | `Item.Payload`, `Item.exportsUnaliased`, `Item.ownAttributes`, `Str.basename`, `Str.splitext` |
| cls_item.py | `TaskAdd.__init__` | 930-950 | `Item.Payload`, `Item.splitNE`, `Item.mkTaskAdd`, `Item.ownAttributes`, `Str.splitC` |
| cls_item.py | `TaskAdd.FuncName` | 952-959 | `Item.Payload`, `Item.ownAttributes` |
| cls_item.py | `TaskAdd.Before` | 961-968 | `Item.Payload`, `Item.ownAttributes` |
| cls_item.py | `TaskAdd.After` | 970-977 | `Item.Payload`, `Item.ownAttributes` |
| cls_item.py | `TaskAdd.Comment` | 979-986 | `Item.Payload`, `Item.ownAttributes` |
| cls_item.py | `TaskAdd.get_items` | 988-994 | `Item.Payload`, `Item.Item.getItems`, `Item.ownAttributes` |
| cls_item.py | `TaskDel.__init__` | 1004-1016 | `Item.Payload`, `Item.mkTaskDel`, `Item.ownAttributes` |
| cls_item.py | `TaskDel.FuncName` | 1018-1025 | `Item.Payload`, `Item.ownAttributes` |
| cls_item.py | `TaskDel.Comment` | 1027-1034 | `Item.Payload`, `Item.ownAttributes` |
| cls_item.py | `TaskDel.get_items` | 1036-1042 | `Item.Payload`, `Item.Item.getItems`, `Item.ownAttributes` |
| cls_item.py | `MissingFile.__init__` | 1052-1064 | `Item.Payload`, `Item.mkMissingFile`, `Item.ownAttributes` |
| cls_item.py | `MissingFile.Filename` | 1066-1073 | `Item.Payload`, `Item.ownAttributes` |
| cls_item.py | `MissingFile.Statement` | 1075-1082 | `Item.Payload`, `Item.ownAttributes` |
| cls_item.py | `MissingFile.get_items` | 1084-1085 | `Item.Payload`, `Item.Item.getItems`, `Item.ownAttributes` |
| cls_item.py | `AddPylib.__init__` | 1095-1107 | `Item.Payload`, `Item.ownAttributes` |
| cls_item.py | `AddPylib.Path` | 1109-1116 | `Item.Payload`, `Item.ownAttributes` |
| cls_item.py | `AddPylib.Namespace` | 1118-1125 | `Item.Payload`, `Item.ownAttributes` |
| cls_item.py | `AddPylib.get_items` | 1127-1133 | `Item.Payload`, `Item.Item.getItems`, `Item.ownAttributes` |
| cls_item.py | `AddFragements.__init__` | 1144-1159 | `Item.Payload`, `Item.ownAttributes` |
| cls_item.py | `AddFragements.Path` | 1161-1168 | `Item.Payload`, `Item.ownAttributes` |
| cls_item.py | `AddFragements.Variable` | 1170-1177 | `Item.Payload`, `Item.ownAttributes` |
| cls_item.py | `AddFragements.Flagged` | 1179-1186 | `Item.Payload`, `Item.ownAttributes` |
| cls_item.py | `AddFragements.get_items` | 1188-1194 | `Item.Payload`, `Item.Item.getItems`, `Item.ownAttributes` |
| cls_item.py | `IncludeAll.__init__` | 1203-1212 | `Item.Payload`, `Item.ownAttributes` |
| cls_item.py | `IncludeAll.File` | 1214-1221 | `Item.Payload`, `Item.ownAttributes` |
| cls_item.py | `IncludeAll.get_items` | 1223-1229 | `Item.Payload`, `Item.Item.getItems`, `Item.ownAttributes` |
| cls_item.py | `Inherit.__init__` | 1239-1257 | `Item.Payload`, `Item.ownAttributes` |
| cls_item.py | `Inherit.Class` | 1259-1266 | `Item.Payload`, `Item.ownAttributes` |
| cls_item.py | `Inherit.Statement` | 1268-1275 | `Item.Payload`, `Item.ownAttributes` |
| cls_item.py | `Inherit.FilePaths` | 1277-1288 | `Item.Payload`, `Item.ownAttributes` |
| cls_item.py | `Inherit.get_items` | 1290-1296 | `Item.Payload`, `Item.Item.getItems`, `Item.ownAttributes` |
| cls_item.py | `Unset.__init__` | 1306-1320 | `Item.Payload`, `Item.ownAttributes` |
| cls_item.py | `Unset.VarName` | 1322-1329 | `Item.Payload`, `Item.ownAttributes` |
| cls_item.py | `Unset.Flag` | 1331-1338 | `Item.Payload`, `Item.ownAttributes` |
| cls_item.py | `Unset.get_items` | 1340-1346 | `Item.Payload`, `Item.Item.getItems` |
| cls_stash.py | `Stash.StashList.__init__` | 33-42 | `StashOps.StashList` |
| cls_stash.py | `Stash.StashList.__setitem__` | 44-45 | `StashOps.StashList.setItem` |
| cls_stash.py | `Stash.StashList.__iadd__` | 47-48 | `StashOps.StashList.iadd` |
| cls_stash.py | `Stash.StashList.insert` | 50-57 | `StashOps.StashList.insert` |
| cls_stash.py | `Stash.StashList.append` | 59-69 | `StashOps.StashList.append` |
| cls_stash.py | `Stash.StashList.extend` | 71-78 | `StashOps.StashList.extend` |
| cls_stash.py | `Stash.StashList.remove` | 80-90 | `StashOps.StashList.remove` |
| cls_stash.py | `Stash.StashList.reduce` | 92-120 | `StashOps.StashList.reduce` |
| cls_stash.py | `Stash.__init__` | 122-139 | `Setters.Stash.assign`, `Stash.Stash`, `Stash.Stash.init` |
| cls_stash.py | `Stash._clear_cached` | 141-155 | `Cache.CKey.cleared`, `Cache.CStash.clear` |
| cls_stash.py | `Stash.AddFile` | 157-229 | `Cache.Item.ident`, `Cache.cAddFile`, `Parser.maxLine`, `Parser.appendPattern`, `Parser.linkAppend`, `Parser.appendPattern'`, `Parser.linkRecipe`, `Parser.enterMap`, `Parser.crossLink`, `Parser.alreadySeen`, `Parser.Stash.say`, `Parser.markSeen`, `Parser.commitItems`, `Parser.addFile`, `Stash.Stash`, `Str.replaceAll`, `Str.basename`, `Str.splitext`, `Str.abspath` |
| cls_stash.py | `Stash.FingerPrint` | 231-238 | `StashOps.fingerPrint` |
| cls_stash.py | `Stash.Append` | 240-253 | `Cache.cAppend`, `StashOps.appendItems` |
| cls_stash.py | `Stash.Remove` | 255-268 | `Cache.cRemove`, `StashOps.removeItems` |
| cls_stash.py | `Stash.AddDistroMachineFromLayer` | 270-283 | `Cache.addLayerConfs`, `Cache.cAddDistroMachine`, `Parser.replConst`, `Parser.addConfs`, `Parser.addDistroMachine`, `Str.basename`, `Str.splitext`, `Str.pathJoin` |
| cls_stash.py | `Stash.Finalize` | 285-300 | `Cache.Item.ident`, `Cache.closeM`, `Cache.cIncludedLoop`, `Cache.cFinalize`, `StashOps.linkLoop`, `StashOps.closeLoop`, `StashOps.includedLoop`, `StashOps.finalize` |
| cls_stash.py | `Stash.GetRecipes` | 302-309 | `Cache.CVal`, `Cache.cRecipes`, `StashOps.getRecipes`, `Str.strLe`, `Str.sortBy` |
| cls_stash.py | `Stash.GetLoneAppends` | 311-325 | `Cache.CVal`, `Cache.cLoneAppends`, `StashOps.getLoneAppends`, `Str.strLe`, `Str.sortBy` |
| cls_stash.py | `Stash.GetConfFiles` | 327-334 | `Cache.CVal`, `Cache.cConfFiles`, `StashOps.getConfFiles` |
| cls_stash.py | `Stash.GetBBClasses` | 336-343 | `Cache.CVal`, `Cache.cBBClasses`, `StashOps.getBBClasses`, `Str.strLe`, `Str.sortBy` |
| cls_stash.py | `Stash.__is_linked_to` | 345-347 | `Cache.CVal`, `Cache.cLinked`, `Setters.CKey.assign`, `Setters.CVal.assign`, `Stash.isLinkedTo` |
| cls_stash.py | `Stash.__get_items_by_file` | 349-353 | `Cache.CVal`, `Cache.cLinkedFilter`, `Cache.cByFile`, `Setters.CKey.assign`, `Setters.CVal.assign`, `Stash.getItemsByFile` |
| cls_stash.py | `Stash.__get_items_by_classifier` | 355-359 | `Cache.CVal`, `Cache.cByClassifier`, `Setters.CKey.assign`, `Setters.CVal.assign`, `Stash.getItemsByClassifier` |
| cls_stash.py | `Stash.__get_items_by_attribute` | 361-374 | `Cache.CVal`, `Cache.cByAttribute`, `Setters.CKey.assign`, `Setters.CVal.assign`, `Stash.attrFilter`, `Stash.getItemsByAttribute` |
| cls_stash.py | `Stash.__get_items_by_attribute._filter` | 366-372 | `Cache.CVal`, `Cache.cByAttribute`, `Setters.CKey.assign`, `Setters.CVal.assign`, `Stash.attrFilter`, `Stash.getItemsByAttribute` |
| cls_stash.py | `Stash.GetLinksForFile` | 376-388 | `Cache.CVal`, `Cache.cLinksForFile`, `Stash.getLinksForFile` |
| cls_stash.py | `Stash.Reduce` | 390-425 | `Cache.cStepFile`, `Cache.cStepClassifier`, `Cache.cStepAttribute`, `Cache.cApplyFilter`, `Cache.cReduce`, `Cache.cItemsFor`, `Setters.CKey.assign`, `Stash.Arg.norm`, `Stash.Filter`, `Stash.applyFilter`, `Stash.reduceL`, `Str.sortBy` |
| cls_stash.py | `Stash.GetItemsFor` | 427-451 | `Cache.cItemsFor`, `Stash.getItemsFor` |
| cls_stash.py | `Stash.ExpandVar` | 453-569 | `Cache.cExplode`, `Cache.cExpandVar`, `StashOps.mergeBase`, `StashOps.expInit`, `StashOps.immediateOp`, `StashOps.passImmediate`, `StashOps.passAppend`, `StashOps.passRemove`, `StashOps.explode`, `StashOps.expandVarItems`, `StashOps.expandVar`, `Str.replaceAll`, `Str.sortBy` |
| cls_stash.py | `Stash.GetFiles` | 571-592 | `Cache.CVal`, `Cache.cFiles`, `Stash.varFilter`, `StashOps.getFiles`, `Str.dirname`, `Str.strLe`, `Str.sortBy` |
| cls_stash.py | `Stash.GetLayerRoot` | 594-611 | `Cache.CVal`, `Cache.cLayerRoot`, `Stash.layerRootLoop`, `Stash.layerStart`, `Stash.getLayerRoot`, `Str.dirname`, `Str.pathJoin` |
| cls_stash.py | `Stash.FindLocalOrLayer` | 613-636 | `Cache.CVal`, `Cache.cFindLocalOrLayer`, `Stash.findLoop`, `Stash.findLocalOrLayer`, `Str.dirname`, `Str.pathJoin` |
| cls_stash.py | `Stash._replace_with_known_mirrors` | 638-644 | `Stash.replaceMirrors`, `Str.replaceAll` |
| cls_stash.py | `Stash.GetScrComponents` | 646-669 | `Cache.CVal`, `Cache.cScrComponents`, `Stash.parseOptions`, `Stash.getScrComponents`, `Str.splitC` |
| cls_stash.py | `Stash.SafeLineSplit` | 671-681 | `Stash.stashSafeLineSplit` |
| cls_stash.py | `Stash.GuessRecipeName` | 683-694 | `Stash.guessRecipeName`, `Str.splitC`, `Str.basename`, `Str.splitext` |
| cls_stash.py | `Stash.GuessBaseRecipeName` | 696-710 | `Stash.guessBaseRecipeName` |
| cls_stash.py | `Stash.GuessRecipeVersion` | 712-724 | `Stash.guessRecipeVersion`, `Str.basename`, `Str.splitext` |
| cls_stash.py | `Stash._ReverseInlineBlock` | 726-730 | `Stash.reverseInline`, `Str.replaceFirst` |
| cls_stash.py | `Stash.ExpandTerm` | 732-805 | `Cache.sourceFrom`, `Cache.cExpandOne`, `Cache.cExpandMany`, `Cache.cReadFiles`, `Cache.cExpandTermF`, `Cache.cExpandTermS`, `ExpandTerm.asAssignment`, `ExpandTerm.assignments`, `ExpandTerm.assignmentText`, `ExpandTerm.Source`, `ExpandTerm.sourceOf`, `ExpandTerm.expandOne`, `ExpandTerm.expandMany`, `ExpandTerm.readFiles`, `ExpandTerm.expandTermF`, `ExpandTerm.expandTermS`, `ExpandTerm.expandTermObj`, `RegexRpl.scanAll`, `Stash.varFilter`, `Str.replaceAll`, `Str.dirname` |
| cls_stash.py | `Stash.ExpandTerm._expand` | 752-792 | `Cache.sourceFrom`, `Cache.cExpandOne`, `Cache.cExpandTermF`, `Cache.cExpandTermS`, `ExpandTerm.asAssignment`, `ExpandTerm.assignments`, `ExpandTerm.assignmentText`, `ExpandTerm.Source`, `ExpandTerm.sourceOf`, `ExpandTerm.expandOne`, `ExpandTerm.expandTermF`, `ExpandTerm.expandTermS`, `Stash.varFilter`, `Str.replaceAll`, `Str.dirname` |
| cls_stash.py | `Stash.GetValidPackageNames` | 807-835 | `Cache.CVal`, `Cache.cPackageLoop`, `Cache.cPackageNames`, `Stash.varFilter`, `StashOps.stdPackages`, `StashOps.packageWords`, `StashOps.packageLoop`, `StashOps.getValidPackageNames`, `Str.replaceAll` |
| cls_stash.py | `Stash.GetValidNamedResources` | 837-858 | `Cache.CVal`, `Cache.cNamedLoop`, `Cache.cNamedResources`, `Stash.varFilter`, `StashOps.namedLoop`, `StashOps.getValidNamedResources` |
| cls_stash.py | `Stash.IsImage` | 860-882 | `Cache.CVal`, `Cache.cIsImage`, `Stash.varFilter`, `StashOps.inheritFilter`, `StashOps.isImage` |
| cls_stash.py | `Stash.IsPackageGroup` | 884-896 | `Cache.CVal`, `Cache.cIsPackageGroup`, `StashOps.inheritFilter`, `StashOps.isPackageGroup` |
| cls_stash.py | `Stash.GetPackagesDynamic` | 898-917 | `Cache.CVal`, `Cache.cDynLoop`, `Cache.cPackagesDynamic`, `Stash.varFilter`, `StashOps.dynLoop`, `StashOps.getPackagesDynamic` |
| cls_stash.py | `Stash.IsDynamicPackage` | 919-935 | `Cache.CVal`, `Cache.cIsDynamicPackage`, `StashOps.anyMatch`, `StashOps.isDynamicPackage` |
| constants.py | `Constants.__init__` | 13-19 | `Json.newConstants` |
| constants.py | `Constants.__load_db` | 21-27 | `Json.loadDb` |
| constants.py | `Constants.GetByPath` | 29-42 | `Constants.pathKeys`, `Constants.getKeys`, `Constants.getByPath` |
| constants.py | `Constants.AddConstants` | 44-59 | `ConstHeap.hLeaf`, `ConstHeap.hItem`, `ConstHeap.hLoop`, `ConstHeap.hMerge`, `Constants.plusEq`, `Constants.leafMerge`, `Constants.mergeKV`, `Constants.mergeDb`, `Constants.addConstants` |
| constants.py | `Constants.AddConstants.dict_merge` | 50-58 | `ConstHeap.hLeaf`, `ConstHeap.hItem`, `ConstHeap.hLoop`, `ConstHeap.hMerge`, `Constants.plusEq`, `Constants.leafMerge`, `Constants.mergeKV`, `Constants.mergeDb`, `Constants.addConstants` |
| constants.py | `Constants.RemoveConstants` | 61-76 | `ConstHeap.hItem`, `ConstHeap.hLoop`, `ConstHeap.hMerge`, `Constants.minusEq`, `Constants.mergeKV`, `Constants.mergeDb`, `Constants.removeConstants` |
| constants.py | `Constants.RemoveConstants.dict_merge` | 67-75 | `ConstHeap.hItem`, `ConstHeap.hLoop`, `ConstHeap.hMerge`, `Constants.minusEq`, `Constants.mergeKV`, `Constants.mergeDb`, `Constants.removeConstants` |
| constants.py | `Constants.OverrideConstants` | 78-93 | `ConstHeap.hItem`, `ConstHeap.hLoop`, `ConstHeap.hMerge`, `Constants.mergeKV`, `Constants.mergeDb`, `Constants.overrideConstants` |
| constants.py | `Constants.OverrideConstants.dict_merge` | 84-92 | `ConstHeap.hItem`, `ConstHeap.hLoop`, `ConstHeap.hMerge`, `Constants.mergeKV`, `Constants.mergeDb`, `Constants.overrideConstants` |
| constants.py | `Constants.FunctionsKnown` | 95-102 | `Constants.constGet` |
| constants.py | `Constants.FunctionsOrder` | 104-111 | `Constants.constGet` |
| constants.py | `Constants.MirrorsKnown` | 113-120 | `Constants.constGet` |
| constants.py | `Constants.VariablesKnown` | 122-129 | `Constants.constGet` |
| constants.py | `Constants.DistrosKnown` | 131-138 | `Constants.constGet` |
| constants.py | `Constants.MachinesKnown` | 140-147 | `Constants.constGet` |
| constants.py | `Constants.ImagesClasses` | 149-156 | `Constants.constGet` |
| constants.py | `Constants.ImagesVariables` | 158-165 | `Constants.constGet` |
| constants.py | `Constants.SetsBase` | 167-174 | `Constants.constGet` |
| constants.py | `Constants.ClassIgnore` | 176-183 | `Constants.constGet` |
| constants.py | `Constants.IncludeIgnore` | 185-192 | `Constants.constGet` |
| inlinerep.py | `bb_utils_filter` | 30-47 | `Inlinerep.oneBranch`, `Inlinerep.bbUtilsFilter`, `Str.hasSub` |
| inlinerep.py | `bb_utils_contains` | 50-67 | `Inlinerep.twoBranch`, `Inlinerep.bbUtilsContains` |
| inlinerep.py | `bb_utils_contains_any` | 70-87 | `Inlinerep.bbUtilsContainsAny` |
| inlinerep.py | `oe_utils_conditional` | 90-107 | `Inlinerep.oeUtilsConditional` |
| inlinerep.py | `oe_utils_ifelse` | 110-127 | `Inlinerep.oeUtilsIfelse` |
| inlinerep.py | `oe_utils_any_distro_features` | 130-149 | `Inlinerep.featBranch`, `Inlinerep.oeUtilsAnyDistroFeatures` |
| inlinerep.py | `oe_utils_all_distro_features` | 152-171 | `Inlinerep.oeUtilsAllDistroFeatures` |
| inlinerep.py | `oe_utils_vartrue` | 174-191 | `Inlinerep.oeUtilsVartrue` |
| inlinerep.py | `oe_utils_less_or_equal` | 194-211 | `Inlinerep.oeUtilsLessOrEqual` |
| inlinerep.py | `oe_utils_version_less_or_equal` | 214-231 | `Inlinerep.oeUtilsVersionLessOrEqual` |
| inlinerep.py | `oe_utils_both_contain` | 234-251 | `Inlinerep.oeUtilsBothContain` |
| inlinerep.py | `d_getvar` | 254-268 | `Inlinerep.dGetvar` |
| inlinerep.py | `inlinerep` | 271-298 | `Inlinerep.cleanInline`, `Inlinerep.inlinerep` |
| parser.py | `get_full_scope` | 68-90 | `Chunks.scopeLen`, `Chunks.getFullScope` |
| parser.py | `prepare_lines_subparser` | 93-187 | `Chunks.isDefStart`, `Chunks.contLoop`, `Chunks.funcLoop`, `Chunks.funcRead`, `Chunks.commentLoop`, `Chunks.defLoop`, `Chunks.iterate`, `Chunks.inlineLoop`, `Chunks.inlineSub`, `Chunks.Chunk`, `Chunks.cntOf`, `Chunks.mkChunk`, `Chunks.subparser`, `Str.pySpace`, `Str.hasSub`, `Str.findSub`, `Str.replaceAll`, `Str.countC` |
| parser.py | `prepare_lines_subparser.iterate` | 112-169 | `Chunks.isDefStart`, `Chunks.contLoop`, `Chunks.funcLoop`, `Chunks.funcRead`, `Chunks.commentLoop`, `Chunks.defLoop`, `Chunks.iterate`, `Chunks.subparser`, `Str.pySpace`, `Str.countC` |
| parser.py | `prepare_lines` | 190-232 | `Chunks.chunkLoop`, `Chunks.chunksOf`, `Parser.prepareLines` |
| parser.py | `get_items` | 235-470 | `Cache.cFindClass`, `Cache.cInheritLoop`, `Cache.cHandleKind`, `Cache.cClassify`, `Cache.cItemsLoop`, `Cache.cGetItems`, `Item.Params`, `Parser.Kind`, `Parser.parseOrder`, `Parser.maxInFileLine`, `Parser.findClass`, `Parser.withBbclass`, `Parser.inheritLoop`, `Parser.taskAsVar`, `Parser.handleKind`, `Parser.classify`, `Parser.chunkParams`, `Parser.itemsLoop`, `Parser.getItems`, `Str.pySpace`, `Str.dirname`, `Str.pathJoin`, `Str.abspath` |
| rpl_regex.py | `RegexRpl.search` | 10-27 | `RegexRpl.rplSearch` |
| rpl_regex.py | `RegexRpl.split` | 29-47 | `RegexRpl.rplSplit` |
| rpl_regex.py | `RegexRpl.match` | 49-66 | `RegexRpl.rplMatch` |
| rpl_regex.py | `RegexRpl.sub` | 68-87 | `RegexRpl.rplSub` |
| rpl_regex.py | `RegexRpl.finditer` | 89-106 | `RegexRpl.rplFinditer` |
