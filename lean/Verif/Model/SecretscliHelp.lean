import Verif.Go.Text
import Verif.Go.Strings
/-! Model of cmd/secretscli/help.go: the texts that `help` prints. -/

namespace Verif.Model.Secretscli
open Verif Verif.Go

/-- `cmdHelp` (cmd/secretscli/help.go:9-13). -/
structure CmdHelp where
  args : Bytes
  desc : Bytes
  old : Bytes

/-- `helpTable` (cmd/secretscli/help.go:15-123), in the order of the source. -/
def helpTable : List (Bytes × CmdHelp) := [
  (ascii "clear", {
    args := ascii "none"
    desc := ascii "\n\n\tClear the screen using an ANSI escape code. This may not work\n\tin all terminals.\n"
    old := ascii "attempt to clear the display" }),
  (ascii "help", {
    args := ascii "optional: command names"
    desc := ascii "\n\n\tShow help messages. If arguments are provided, show the\n\tfull help message for the first argument.\n"
    old := ascii "print usage information" }),
  (ascii "list", {
    args := ascii "optional: substrings to search for"
    desc := ascii "\n\n\tList the secrets in the store. If arguments are provided,\n\tthey will be used to match labels: a label will be included\n\tin the list if any of the argumnts appear as substrings in\n\tthe label.\n"
    old := ascii "list the labels in the store" }),
  (ascii "passwd", {
    args := ascii "none"
    desc := ascii "\n\n\tChange the password on the store. Accepts no arguments.\n"
    old := ascii "change the store's passphrase" }),
  (ascii "quit", {
    args := ascii "none"
    desc := ascii "\n\n\tWrite the store to disk if it has been modified and exit. This\n\tmay also be done with C-d.\n"
    old := ascii "exit the program" }),
  (ascii "rmeta", {
    args := ascii "required: one or more labels"
    desc := ascii "\n\n\tRead metadata from the listed labels. Requires at least one\n\tlabel to be provided.\n"
    old := ascii "display record metadata" }),
  (ascii "show", {
    args := ascii "required: one or more labels"
    desc := ascii "\n\n\tPrint a secret's raw bytes to console. This is useful if the\n\tsecret is textual (e.g. a passphrase); for binary data, see\n\t'showhex'. If more than one label is specified, the passwords\n\twill be printed with their label.\n"
    old := ascii "show secrets as text" }),
  (ascii "showhex", {
    args := ascii "required: one or more labels"
    desc := ascii "\n\n\tPrint a hex-encoded secret to console. This is useful if the\n\tsecret contains binary data; for textual secrets, see\n\t'show'. If more than one label is specified, the passwords\n\twill be printed with their label.\n"
    old := ascii "show secrets as hex-encoded" }),
  (ascii "store", {
    args := ascii "required: one or more labels"
    desc := ascii "\n\n\tStore a new passphrase for each of the labels specified. If the\n\tlabel already exists, the user will be prompted whether or not\n\tthey wish to proceed.\n"
    old := ascii "store secrets" }),
  (ascii "wmeta", {
    args := ascii "required: a single label"
    desc := ascii "\n\n\tWrite metadata to the label; only one label may be\n\tspecified. For metadata keys that replace old values, the\n\tprevious value will be displayed and the overwrite will be\n\tnoted.\n"
    old := ascii "write metadata" }),
  (ascii "write", {
    args := ascii "none"
    desc := ascii "\n\n\tWrite the store to disk. Note that this will be done\n\tautomatically when the program exits, as well.\n"
    old := ascii "write the store to disk" })]

/-- `helpTable[cmd]` -/
def helpFor (cmd : Bytes) : Option CmdHelp := helpTable.lookup cmd

/-- The keys of `dispatch` (cmd/secretscli/commands.go:19-31), in the order of the source. -/
def dispatchKeys : List Bytes :=
  [ascii "clear", ascii "help", ascii "list", ascii "quit", ascii "passwd", ascii "rmeta", ascii "show", ascii "showhex",
    ascii "store", ascii "wmeta", ascii "write"]

/-- `commandList` (cmd/secretscli/help.go:125-138). It is sorted, so that the order of the map does
not matter. The warning for commands without an entry is left out: there are none. -/
def commandList : List Bytes :=
  (dispatchKeys.filter (fun cmd => (helpFor cmd).isSome)).mergeSort (fun a b => decide (a ≤ b))

/-- What `printCommands` prints (cmd/secretscli/help.go:140-147). All commands listed have an
entry. -/
def commandsText : Bytes :=
  ascii "Commands:" ++ [10] ++
    commandList.flatMap (fun cmd => 9 :: cmd ++ ascii ": " ++ ((helpFor cmd).elim [] (·.old)) ++ [10]) ++
    ascii "Use help command (e.g. help list) to read more detailed help messages." ++ [10]

/-- What `help` prints (cmd/secretscli/help.go:149-164); `none` is the error. -/
def helpText (args : List Bytes) : Option Bytes :=
  match args with
  | [] => some commandsText
  | cmd :: _ =>
    match helpFor cmd with
    | none => none
    | some h => some (cmd ++ ascii ": " ++ h.old ++ 10 :: 9 :: ascii "Arguments: " ++ h.args ++ 10 :: h.desc ++ [10, 10])

end Verif.Model.Secretscli
