import Verif.Props.Setup
import Verif.Model.Options

/-!
# C54: the names under which options are written
-/

namespace PyFHD

open Spec

/-- The keys that the reader of configuration files accepts: the long names of the options. -/
def Spec.fileKeys : List (List Char) :=
  (optionTable.flatMap fun d => d.names).filterMap fun n => match n.toList with
    | '-' :: '-' :: k => some k
    | _ => none

/-- The names under which `write_collated_yaml_config` writes an option whose value is not a list. -/
def Spec.writtenAs (dest : String) : List Char := dest.toList.map fun c => if c = '_' then '-' else c

/-- **C54**, exactly which options that are not lists are written under a name that can be read: all but
eleven, of which the program skips two (`grid_psf_file_sav`, `grid_psf_file_npz`) and one (`grid_psf_file`) is a list. -/
theorem C54_names : ∀ d ∈ optionTable, writtenAs d.dest ∈ fileKeys ↔
    d.dest ∉ ["deproject_w_term", "calibration_catalog_file_path", "grid_psf_file", "IDL_calibrate", "grid_IDL_outputs",
      "IDL_healpix_gridded_outputs", "IDL_output_dir", "IDL_dry_run", "IDL_variables_file", "grid_psf_file_sav", "grid_psf_file_npz"] := by
  decide +kernel

/-- **C54**, lists are written under the name with underscores: of the five options that can be lists only `grid_psf_file` can be read. -/
theorem C54_list_names : ∀ d ∈ optionTable, d.kind = .chars ∨ d.kind = .append ∨ d.kind = .many →
    (d.dest.toList ∈ fileKeys ↔ d.dest = "grid_psf_file") := by
  decide +kernel

/-- **C54 is violated** for every configuration of the program: the switch `IDL_calibrate`, on or off, is written as `IDL-calibrate`, which is
not the name of an option, so that no written file can be given back to the program. -/
theorem C54_never_read (cfg : List (String × CfgVal)) (b : Bool) (h : ("IDL_calibrate", CfgVal.bool b) ∈ cfg) :
    ∀ r, readConfig fileKeys (writeYaml cfg) ≠ .ok r := by
  have hm : ("IDL-calibrate".toList, (if b then "True" else "False").toList) ∈ writeYaml cfg := by
    unfold writeYaml
    rw [List.mem_filterMap]
    refine ⟨("IDL_calibrate", .bool b), ?_, ?_⟩
    · rw [List.mem_filter]
      refine ⟨h, ?_⟩
      show (!skippedKeys.contains "IDL_calibrate") = true
      decide +kernel
    · have : dashKey "IDL_calibrate".toList = "IDL-calibrate".toList := by decide +kernel
      simp only [yamlLine, this]
  refine readConfig_unknown fileKeys _ _ _ hm (by decide +kernel) ?_
  cases b <;> decide +kernel

example : ("IDL_calibrate", CfgVal.bool false) ∈ [("dimension", CfgVal.num "2048"), ("IDL_calibrate", CfgVal.bool false)] := by simp

end PyFHD
