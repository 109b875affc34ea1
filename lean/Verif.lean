import Verif.Model.RegexRpl
import Verif.Model.StashOps
import Verif.Props.Chunks
import Verif.Props.Names
import Verif.Props.Constants
import Verif.Props.Queries
import Verif.Props.State
import Verif.Props.Links
import Verif.Props.Expand
import Verif.Props.Paths
import Verif.Props.Loading
import Verif.Props.Tokens
import Verif.Props.Statements
import Verif.Props.ExpandVar
import Verif.Props.Inline
import Verif.Props.Packages
import Verif.Props.Restore
import Verif.Props.Cache
import Verif.Props.ConstHeap
import Verif.Props.Forms
import Verif.Props.Recipe
import Verif.Props.Succeeds
import Verif.Props.Known
import Verif.Props.Unique
import Verif.Props.MultiLine
import Verif.Props.Lists
import Verif.Props.Shipped
import Verif.Props.Returned
import Verif.Props.Two
import Verif.Props.Reproducible
import Verif.Props.Context
import Verif.Props.ReproducibleRefs
import Verif.Props.Setters
import Verif.Props.Directory
import Verif.Props.Fingerprint
import Verif.Props.Lines
import Verif.Props.ExpandVarExact
import Verif.Props.Printed
import Verif.Props.Process
import Verif.Props.Disk
import Verif.Props.Edit
import Verif.Props.Kinds
import Verif.Props.AnyOrder
import Verif.Props.Undisturbed
import Verif.Props.Settled
import Verif.Props.Layout
import Verif.Props.ConstCalls
import Verif.Props.Pieces
import Verif.Props.Depends
import Verif.Props.DependsVar
import Verif.Props.Breaks
import Verif.Props.Spelling
import Verif.Props.Agree
import Verif.Props.AppendWins
import Verif.Props.Meaning
import Verif.Props.MeaningRefs
import Verif.Props.MeaningAppend
import Verif.Props.MeaningInclude
import Verif.Props.MeaningInherit
import Verif.Props.MeaningPackages
import Verif.Props.MeaningSources
import Verif.Props.MeaningKind
import Verif.Props.NoRaise
import Verif.Props.MeaningThree
