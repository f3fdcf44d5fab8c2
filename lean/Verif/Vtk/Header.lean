/-
The text that the program prints is the XML header of the specification.
-/
import Verif.Vtk.Fields

set_option autoImplicit false
set_option linter.unusedSimpArgs false
set_option maxRecDepth 20000

namespace Fclaw.Vtk

open Fclaw.ParFile (Byte)

theorem text_append (a b : String) : text (a ++ b) = text a ++ text b := by
  simp [text]

theorem xml_floats : text "    <DataArray type=\"Float64\" Name=\"Position\" NumberOfComponents=\"3\" format=\"appended\" offset=\""
    = text "    <DataArray type=\"" ++ (text "Float64" ++ (text "\" Name=\"" ++ (text "Position"
      ++ (text "\" " ++ (text "NumberOfComponents=\"" ++ (dec 3 ++ (text "\" "
      ++ text "format=\"appended\" offset=\""))))))) := by
  have : dec 3 = text "3" := by decide
  rw [this]
  simp only [← text_append]
  exact congrArg text (by decide)

theorem xml_connectivity : text "\" Name=\"connectivity\" format=\"appended\" offset=\""
    = text "\" Name=\"" ++ (text "connectivity" ++ (text "\" "
      ++ text "format=\"appended\" offset=\"")) := by
  simp only [← text_append]
  exact congrArg text (by decide)

theorem xml_offsets : text "\" Name=\"offsets\" format=\"appended\" offset=\""
    = text "\" Name=\"" ++ (text "offsets" ++ (text "\" "
      ++ text "format=\"appended\" offset=\"")) := by
  simp only [← text_append]
  exact congrArg text (by decide)

theorem xml_patchno : text "\" Name=\"patchno\" format=\"appended\" offset=\""
    = text "\" Name=\"" ++ (text "patchno" ++ (text "\" "
      ++ text "format=\"appended\" offset=\"")) := by
  simp only [← text_append]
  exact congrArg text (by decide)

theorem xml_types : text "    <DataArray type=\"UInt8\" Name=\"types\" format=\"appended\" offset=\""
    = text "    <DataArray type=\"" ++ (text "UInt8" ++ (text "\" Name=\"" ++ (text "types"
      ++ (text "\" " ++ text "format=\"appended\" offset=\"")))) := by
  simp only [← text_append]
  exact congrArg text (by decide)

theorem xml_mpirank : text "    <DataArray type=\"Int32\" Name=\"mpirank\" format=\"appended\" offset=\""
    = text "    <DataArray type=\"" ++ (text "Int32" ++ (text "\" Name=\"" ++ (text "mpirank"
      ++ (text "\" " ++ text "format=\"appended\" offset=\"")))) := by
  simp only [← text_append]
  exact congrArg text (by decide)

theorem xml_blockno : text "    <DataArray type=\"Int32\" Name=\"blockno\" format=\"appended\" offset=\""
    = text "    <DataArray type=\"" ++ (text "Int32" ++ (text "\" Name=\"" ++ (text "blockno"
      ++ (text "\" " ++ text "format=\"appended\" offset=\"")))) := by
  simp only [← text_append]
  exact congrArg text (by decide)

theorem xml_meqn1 : text "    <DataArray type=\"Float32\" Name=\"meqn\" format=\"appended\" offset=\""
    = text "    <DataArray type=\"" ++ (text "Float32" ++ (text "\" Name=\"" ++ (text "meqn"
      ++ (text "\" " ++ text "format=\"appended\" offset=\"")))) := by
  simp only [← text_append]
  exact congrArg text (by decide)

theorem xml_meqn : text "    <DataArray type=\"Float32\" Name=\"meqn\" NumberOfComponents=\""
    = text "    <DataArray type=\"" ++ (text "Float32" ++ (text "\" Name=\"" ++ (text "meqn"
      ++ (text "\" " ++ text "NumberOfComponents=\"")))) := by
  simp only [← text_append]
  exact congrArg text (by decide)

theorem xml_meqn' : text "\" format=\"appended\" offset=\""
    = text "\" " ++ text "format=\"appended\" offset=\"" := by
  simp only [← text_append]
  exact congrArg text (by decide)

theorem xml_close : text "\">\n    </DataArray>\n" = text "\">\n" ++ text "    </DataArray>\n" := by
  simp only [← text_append]
  exact congrArg text (by decide)

theorem xml_top : text "<?xml version=\"1.0\"?>\n<VTKFile type=\"UnstructuredGrid\" version=\"0.1\" byte_order=\"LittleEndian\" header_type=\"UInt64\" >\n <UnstructuredGrid>\n"
    = text "<?xml version=\"1.0\"?>\n" ++ (text "<VTKFile type=\"UnstructuredGrid\" version=\"0.1\" byte_order=\"LittleEndian\" header_type=\"UInt64\" >\n"
      ++ text " <UnstructuredGrid>\n") := by
  simp only [← text_append]
  exact congrArg text (by decide)

theorem xml_mid : text "   </CellData>\n   <PointData>\n   </PointData>\n"
    = text "   </CellData>\n" ++ (text "   <PointData>\n" ++ text "   </PointData>\n") := by
  simp only [← text_append]
  exact congrArg text (by decide)

theorem xml_end : text "  </Piece>\n </UnstructuredGrid>\n <AppendedData encoding=\"raw\">\n  _"
    = text "  </Piece>\n" ++ (text " </UnstructuredGrid>\n"
      ++ text " <AppendedData encoding=\"raw\">\n  _") := by
  simp only [← text_append]
  exact congrArg text (by decide)

theorem headerText_eq (p : Params) (n : Nat) :
    headerText p (stateOf p n) = (vtuOf p n).xml := by
  have hf : (stateOf p n).fits32 = fits p n := rfl
  have h1 : (stateOf p n).globalNumPoints = p.points * n := rfl
  have h2 : (stateOf p n).globalNumCells = p.cells * n := rfl
  unfold headerText Vtu.xml vtuOf DataArray.xml
  simp only [hf, h1, h2, xml_floats, xml_connectivity, xml_offsets, xml_patchno, xml_types,
    xml_mpirank, xml_blockno, xml_meqn1, xml_meqn, xml_meqn', xml_close, xml_top, xml_mid, xml_end]
  cases fits p n <;> by_cases hm : p.meqn = 1 <;>
    simp only [hm, if_true, if_false, List.append_assoc, List.nil_append, Bool.false_eq_true]

end Fclaw.Vtk
