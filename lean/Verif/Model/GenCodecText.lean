import Verif.Model.Source
/-
The template in gen/option/main.go, line by line. Written by tools/embed.py, which compares it with /repo as well.
-/
namespace Pb.Go

/-- proto/gen/option/main.go:11-47 -/
def decodeTmpl : Text := lines [
  t!"// Code generated by gen/option/main.go. DO NOT EDIT.",
  t!"",
  t!"package proto",
  t!"",
  t!"import \"unsafe\"",
  t!"",
  t!"{{range .Decoder}}",
  t!"var {{.Codec}}OptionCodec = codec{",
  t!"\tsize:   sizeOf{{.Name}}Option,",
  t!"\tencode: encode{{.Name}}Option,",
  t!"\tdecode: decode{{.Name}}Option,",
  t!"}",
  t!"",
  t!"func sizeOf{{.Name}}Option(p unsafe.Pointer, f *structField) int {",
  t!"\to := (*Option[{{.Type}}])(p)",
  t!"\tif o.IsSome() {",
  t!"\t\treturn sizeOf{{.Name}}Required(o.unsafePointer(), f)",
  t!"\t}",
  t!"\treturn 0",
  t!"}",
  t!"",
  t!"func encode{{.Name}}Option(b []byte, p unsafe.Pointer, f *structField) []byte {",
  t!"\to := (*Option[{{.Type}}])(p)",
  t!"\tif o.IsSome() {",
  t!"\t\treturn encode{{.Name}}Required(b, o.unsafePointer(), f)",
  t!"\t}",
  t!"\treturn b",
  t!"}",
  t!"",
  t!"func decode{{.Name}}Option(b []byte, p unsafe.Pointer) (int, error) {",
  t!"\tv := (*Option[{{.Type}}])(p)",
  t!"\tv.some = true",
  t!"\treturn decode{{.Name}}(b, v.unsafePointer())",
  t!"}",
  t!"",
  t!"{{end}}"]

end Pb.Go
