#!/usr/bin/env python3
"""Writes lean/Verif/Model/TemplateText.lean, a verbatim copy of the Jinja templates of the generator.

usage: templates.py /repo            compare the copy with the templates
       templates.py /repo --write    write the copy
"""
import os
import sys

FILES = ['Header', 'TypeDefMsg', 'TypeOneof', 'TypeDefEnum', 'FieldBasic_GetSet', 'FieldBasic_Serialize',
         'FieldBasic_Deserialize', 'FieldEnum_GetSet', 'FieldEnum_Serialize', 'FieldEnum_Deserialize', 'FieldMsg_GetSet', 'FieldMsg_Serialize',
         'FieldMsg_Deserialize', 'FieldString_GetSet', 'FieldBytes_GetSet', 'FieldStringBytes_Serialize',
         'FieldRepeated_GetSet', 'FieldRepeated_Serialize', 'FieldErrorRecursive_GetSet']

HEAD = '''/-!
# The templates of the generator

Verbatim copies of the files in /repo/generator/EmbeddedProto/templates, written by tools/templates.py, which also
compares them.  A file is the list of its lines.
-/

namespace EP.Gen.Template

/-- The characters of a string literal, as a list the kernel need not compute. -/
macro "chars!" s:str : term => do
  let cs : Array Lean.Term := (s.getString.toList.map fun c => (⟨Lean.Syntax.mkCharLit c⟩ : Lean.Term)).toArray
  `(([$cs,*] : List Char))
'''


def lit(line):
    n = 0
    while '"' + '#' * n in line:
        n += 1
    return 'r' + '#' * n + '"' + line + '"' + '#' * n


def make(repo):
    out = [HEAD]
    for f in FILES:
        path = os.path.join(repo, 'generator/EmbeddedProto/templates', f + '.h')
        text = open(path, newline='').read()
        assert '\r' not in text and all(ord(c) < 128 for c in text), f
        lines = text.split('\n')
        name = f[0].lower() + f[1:].replace('_', '')
        chunks = [lines[i:i + 20] for i in range(0, len(lines), 20)]
        for i, chunk in enumerate(chunks):
            out.append('def %s%d : List (List Char) := [\n' % (name, i + 1) +
                       ',\n'.join('  chars! ' + lit(l) for l in chunk) + ']\n')
        out.append('/-- generator/EmbeddedProto/templates/%s.h -/\ndef %s : List (List Char) :=\n  ' % (f, name) +
                   ' ++ '.join('%s%d' % (name, i + 1) for i in range(len(chunks))) + '\n')
    out.append('end EP.Gen.Template\n')
    return '\n'.join(out)


here = os.path.dirname(os.path.dirname(os.path.abspath(__file__)))
target = os.path.join(here, 'lean/Verif/Model/TemplateText.lean')
text = make(sys.argv[1])
if '--write' in sys.argv:
    open(target, 'w').write(text)
elif open(target).read() == text:
    print('same')
else:
    print('DIFFERENT')
    sys.exit(1)
