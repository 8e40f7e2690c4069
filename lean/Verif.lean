import Verif.Utf8.Props
import Verif.Strlcpy.Props
import Verif.Tokenize.Props
import Verif.Alloc.Props
import Verif.Getopt.Props
import Verif.Editline.Props
import Verif.GetKey.Props
import Verif.Calendar.Props
import Verif.Dir.Props
import Verif.TextIo.Props
import Verif.Cat.Props
import Verif.PrintfEsc.Props
import Verif.Loader.Props
import Verif.Exec.Props
import Verif.DiskIo.Props
import Verif.Copy.Props
import Verif.Crc.Props
import Verif.Zmodem.Props
import Verif.Zmodem.SessionProps
import Verif.FatBytes.Props
import Verif.FatLock.Props
import Verif.Fat.Props
import Verif.Fat.CrashProps
import Verif.Upcase.Props
import Verif.Glob.Props
import Verif.Lfn.Props
import Verif.Names.Props
import Verif.FatDir.Props
import Verif.Elfexe.Props
import Verif.Uf2.Props
import Verif.FatFile.Props
import Verif.FatFile.ManySpec
import Verif.FatFile.ManyLemmas
import Verif.FatFile.ManyProps
import Verif.Flash.Props
import Verif.FatSync.Props
import Verif.Mount.Props
import Verif.Mkfs.Props
import Verif.DirDev.Props
import Verif.Tree.PathProps
import Verif.Tree.UnlinkProps
import Verif.Tree.EntryLemmas
import Verif.Tree.GrowLemmas
import Verif.Tree.MkdirLemmas
import Verif.Tree.MkdirProps
import Verif.Tree.OpenModel
import Verif.Tree.OpenSpec
import Verif.Tree.OpenLemmas
import Verif.Tree.WipeLemmas
import Verif.Tree.FillLemmas
import Verif.Tree.OpenProps
import Verif.Tree.LifeSpec
import Verif.Tree.LifeLemmas
import Verif.Tree.LifeProps
import Verif.Tree.BaseLemmas
import Verif.Tree.DotsLemmas
import Verif.Tree.LooseLemmas
import Verif.Tree.RenameModel
import Verif.Tree.RenameSpec
import Verif.Tree.RenameLemmas
import Verif.Tree.RenameProps
import Verif.Tree.HistModel
import Verif.Tree.HistSpec
import Verif.Tree.HistLemmas
import Verif.Tree.StepLemmas
import Verif.Tree.UniqueLemmas
import Verif.Tree.HistProps
import Verif.Tree.StatModel
import Verif.Tree.StatSpec
import Verif.Tree.StatLemmas
import Verif.Tree.StatProps
import Verif.Statfs.Model
import Verif.Statfs.Spec
import Verif.Statfs.Lemmas
import Verif.Statfs.Props
import Verif.PicoLoad.Model
import Verif.PicoLoad.Spec
import Verif.PicoLoad.Props
import Verif.PicoLoad.ExampleProps
import Verif.Tree.CwdModel
import Verif.Tree.CwdSpec
import Verif.Tree.CwdLemmas
import Verif.Tree.CwdProps
import Verif.Tree.RmModel
import Verif.Tree.RmSpec
import Verif.Tree.RmLemmas
import Verif.Tree.RmTreeLemmas
import Verif.Tree.RmLoopLemmas
import Verif.Tree.RmDoneLemmas
import Verif.Tree.RmProps
import Verif.Tree.CpModel
import Verif.Tree.CpSpec
import Verif.Tree.CpLemmas
import Verif.Tree.CpCloseLemmas
import Verif.Tree.CpDoneLemmas
import Verif.Tree.CpProps
import Verif.Tree.ChmodModel
import Verif.Tree.ChmodSpec
import Verif.Tree.ChmodLemmas
import Verif.Tree.ChmodProps
import Verif.Tree.LabelModel
import Verif.Tree.LabelSpec
import Verif.Tree.LabelTextLemmas
import Verif.Tree.LabelLemmas
import Verif.Tree.LabelProps
import Verif.Drive.Model
import Verif.Drive.Spec
import Verif.Drive.Props
import Verif.Tree.MvModel
import Verif.Tree.MvSpec
import Verif.Tree.MvLemmas
import Verif.Tree.MvProps
import Verif.Sd.Model
import Verif.Sd.Spec
import Verif.Sd.Lemmas
import Verif.Sd.BlockLemmas
import Verif.Sd.InitLemmas
import Verif.Sd.Props
import Verif.Sd.LossProps
import Verif.Sd.DriveModel
import Verif.Sd.DriveSpec
import Verif.Sd.DriveProps
import Verif.Printf.Model
import Verif.Printf.Spec
import Verif.Printf.Lemmas
import Verif.Printf.Props
import Verif.Gpio.Model
import Verif.Gpio.Spec
import Verif.Gpio.Props
import Verif.Cpr.Model
import Verif.Cpr.Spec
import Verif.Cpr.Lemmas
import Verif.Cpr.ScanLemmas
import Verif.Cpr.EndLemmas
import Verif.Cpr.Props
import Verif.Pack.Model
import Verif.Pack.Spec
import Verif.Pack.Props
import Verif.Handles.Model
import Verif.Handles.Spec
import Verif.Handles.Props
import Verif.Tree.CrashSpec
import Verif.Tree.CrashLemmas
import Verif.Tree.CrashProps
import Verif.Expand.Model
import Verif.Expand.Spec
import Verif.Expand.Lemmas
import Verif.Expand.Props
import Verif.Tree.MoveCrashSpec
import Verif.Tree.MoveCrashLemmas
import Verif.Tree.MoveCrashProps
import Verif.Ls.Model
import Verif.Ls.Spec
import Verif.Ls.Lemmas
import Verif.Ls.Props
import Verif.Shell.Model
import Verif.Shell.Spec
import Verif.Shell.Lemmas
import Verif.Shell.Props
import Verif.Shell.EchoProps
import Verif.Tree.MkdirCrashSpec
import Verif.Tree.MkdirCrashLemmas
import Verif.Tree.MkdirCrashProps
import Verif.Format.Model
import Verif.Format.Spec
import Verif.Format.Props
import Verif.Tree.OpenCrashSpec
import Verif.Tree.OpenCrashLemmas
import Verif.Tree.OpenCrashProps
import Verif.Fat.NearLemmas
import Verif.FatFile.PowerSpec
import Verif.FatFile.PowerProps
import Verif.FatSync.PowerLemmas
import Verif.FatSync.PowerProps
import Verif.Tree.RmdirModel
import Verif.Tree.RmdirSpec
import Verif.Tree.RmdirProps
import Verif.Tree.MkcdModel
import Verif.Tree.MkcdSpec
import Verif.Tree.MkcdProps
import Verif.Speed.Model
import Verif.Speed.Spec
import Verif.Speed.Props
import Verif.Eject.Model
import Verif.Eject.Spec
import Verif.Eject.Props
import Verif.Eject.CmdModel
import Verif.Eject.CmdSpec
import Verif.Eject.CmdProps
import Verif.UnixLoad.Model
import Verif.UnixLoad.Spec
import Verif.UnixLoad.Props
