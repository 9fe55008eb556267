import Verif.Props.Ast
import Verif.Props.Names
import Verif.Props.Structure
import Verif.Props.Termination
import Verif.Props.Queue
import Verif.Props.Nodes
import Verif.Props.Config
import Verif.Props.Api
import Verif.Props.Hooks
import Verif.Spec.LocateSpec
import Verif.Props.Locate
import Verif.Props.AddMissing
import Verif.Props.FromImport
import Verif.Props.Builtin
import Verif.Props.Record
import Verif.Props.Distributions
import Verif.Props.Dunder
import Verif.Props.Export
import Verif.Props.Main
import Verif.Props.DataFiles
import Verif.Props.Bytecode
import Verif.Props.Loaders
import Verif.Props.FromImportRun
import Verif.Props.Scanned
import Verif.Props.Packages
import Verif.Props.StarImport
import Verif.Props.ImportPackage
import Verif.Props.MainOutput
import Verif.Props.Sources
import Verif.Props.BadNames
import Verif.Props.Roots
import Verif.Props.Statements
import Verif.Props.Orphans
import Verif.Props.SysModules
import Verif.Props.Exact
import Verif.Props.ExactExample
import Verif.Props.SixExact
import Verif.Props.MypycExact
import Verif.Props.NoFailure
import Verif.Props.NoFailureExample
import Verif.Proofs.Universe
import Verif.Props.StdlibTable
import Verif.Spec.ProjectSpec
import Verif.Proofs.ProjectText
import Verif.Proofs.Project
import Verif.Proofs.ProjectTame
import Verif.Proofs.ProjectCode
import Verif.Proofs.ProjectWorld
import Verif.Spec.InstalledSpec
import Verif.Proofs.DistLinks
import Verif.Proofs.Flatten
import Verif.Proofs.Installed
import Verif.Props.InWorlds
import Verif.Props.Project
import Verif.Props.ProjectExample
import Verif.Props.FrozenExample
import Verif.Props.ExtendedExample
import Verif.Model.DistWorld
import Verif.Spec.ShelfSpec
import Verif.Proofs.Shelf
import Verif.Props.Shelf
import Verif.Props.ShelfCommand
import Verif.Props.Relay
import Verif.Props.RelayExample
import Verif.Props.StdlibExample
import Verif.Props.Command
import Verif.Props.CommandExample
import Verif.Spec.DotSpec
import Verif.Props.DotRead
import Verif.Spec.PictureSpec
import Verif.Props.Picture
import Verif.Props.PictureExample
import Verif.Spec.HtmlSpec
import Verif.Props.HtmlRead
import Verif.Spec.PageSpec
import Verif.Props.Page
import Verif.Props.PageExample
import Verif.Spec.MovedSpec
import Verif.Spec.TableSpec
import Verif.Props.Moved
import Verif.Proofs.Sourced
import Verif.Model.DataWorld
import Verif.Props.Attributes
import Verif.Spec.PathSpec
import Verif.Spec.MetadataSpec
import Verif.Props.Paths
import Verif.Props.Metadata
import Verif.Spec.RecipeSpec
import Verif.Props.Recipes
import Verif.Spec.DistPictureSpec
import Verif.Props.DistPicture
import Verif.Props.DistPictureExample
import Verif.Spec.ToldSpec
import Verif.Proofs.Told
import Verif.Props.Told
import Verif.Spec.LookupSpec
import Verif.Spec.DiskSpec
import Verif.Proofs.Lookup
import Verif.Proofs.LoaderRaises
import Verif.Props.Lookup
import Verif.Props.LookupDisk
import Verif.Model.DistIter
import Verif.Props.DistIter
import Verif.Spec.OutputSpec
import Verif.Props.CommandRaises
import Verif.Spec.SearchSpec
import Verif.Proofs.Search
