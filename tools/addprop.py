"""usage: addprop.py file.json ; file: {"id","title","statement","quantifier","why","anchors","module","status","note","row","finding"}
adds the property to gen_props.py, regenerates properties.jsonl, adds manifest entry, design row"""
import sys, json, subprocess, os
d=json.load(open(sys.argv[1]))
os.chdir('/verif')
p='tools/gen_props.py'
s=open(p).read()
if 'p("%s",'%d['id'] not in s:
    line='p(%s, %s,\n  %s,\n  %s, %s,\n  %s)\n'%tuple(json.dumps(x,ensure_ascii=False) for x in (d['id'],d['title'],d['statement'],d['quantifier'],d['why'],d['anchors']))
    s=s.replace('if __name__ ==',line+'if __name__ ==',1)
    open(p,'w').write(s)
    subprocess.run(['python3','tools/design_row.py',d['row'],d.get('finding','')],check=True)
subprocess.run(['python3','tools/gen_props.py'],check=True)
subprocess.run(['python3','tools/addm.py',d['module'],d['id'],d['status'],d['note']],check=True)
subprocess.run(['python3','tools/gen_manifest.py'],check=True)
